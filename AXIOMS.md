# Axioms per theorem

Output of `#print axioms` for every theorem in MANIFEST.json, grouped by the set of axioms.

## none

* `Verif.Layers.C19_pointwise`
* `Verif.Training.C37_missing_log`

## propext

* `Verif.Random.C29_reset`
* `Verif.Data.C32_undivided_bare_partial`
* `Verif.Training.C66_save_logs`

## propext, Classical.choice, Quot.sound

* `Verif.Construction.C01_name_returns`
* `Verif.Construction.C01_names_distinct`
* `Verif.Construction.C02_sole_name`
* `Verif.Construction.C02_shared_name`
* `Verif.Construction.C03_content`
* `Verif.Construction.C03_independent`
* `Verif.Construction.C03_connections`
* `Verif.Construction.C03_legal`
* `Verif.Architecture.C04_terminates`
* `Verif.Architecture.C04_exists_iff`
* `Verif.Architecture.C04_perm`
* `Verif.Architecture.C04_topological`
* `Verif.Architecture.C04_sorted`
* `Verif.Architecture.C05_connections`
* `Verif.Architecture.C05_order`
* `Verif.Architecture.C06_validate_iff`
* `Verif.Architecture.C06_missing_outgoing`
* `Verif.Architecture.C07_denotes`
* `Verif.Architecture.C07_collect`
* `Verif.Architecture.C07_round_trip`
* `Verif.Architecture.C07_short_forms`
* `Verif.Layout.C08_every_array`
* `Verif.Layout.C08_partition`
* `Verif.Layout.C08_connections`
* `Verif.Layout.C08_linked`
* `Verif.Layout.C08_terminates`
* `Verif.Layout.C09_sources_tile`
* `Verif.Layout.C09_sink_union`
* `Verif.Layout.C09_forced_order`
* `Verif.EndToEnd.C10_architecture`
* `Verif.EndToEnd.C10_chain`
* `Verif.EndToEnd.C10_arch_parameters`
* `Verif.EndToEnd.C10_arch_single`
* `Verif.Layout.C10_network`
* `Verif.Layout.C10_single`
* `Verif.Layout.C10_complete`
* `Verif.Layout.C10_sound`
* `Verif.Layout.C10_parameters`
* `Verif.Layout.C10_single_parameters`
* `Verif.Layout.C11_aligned`
* `Verif.Buffers.C12_network`
* `Verif.Buffers.C12_regions`
* `Verif.Buffers.C12_share`
* `Verif.Buffers.C12_inside`
* `Verif.Structure.C13_structures`
* `Verif.Structure.C13_templates`
* `Verif.Structure.C13_matches`
* `Verif.Structure.C14_reject`
* `Verif.Structure.C14_order`
* `Verif.Structure.C14_memory_single_partial`
* `Verif.Buffers.C15_parameters_survive`
* `Verif.Buffers.C15_parameters_readable`
* `Verif.Buffers.C15_total`
* `Verif.Buffers.C16_shapes`
* `Verif.Buffers.C16_repeat`
* `Verif.Buffers.C17_network`
* `Verif.Buffers.C17_clear_backward`
* `Verif.Buffers.C18_with_context_partial`
* `Verif.Buffers.C18_without_context`
* `Verif.Buffers.C18_input_erased`
* `Verif.Buffers.C19_handover`
* `Verif.Layers.C19_network`
* `Verif.Layers.C19_recurrent`
* `Verif.Layers.C19_lstm`
* `Verif.Layers.C19_clockwork_at_ticks`
* `Verif.Layers.C19_clockwork_lstm_at_ticks`
* `Verif.Layers.C19_clockwork_wrong`
* `Verif.Network.C20_convolution`
* `Verif.Network.C20_avg_pooling`
* `Verif.Network.C20_max_pooling`
* `Verif.Network.C20_dropout`
* `Verif.Network.C20_mask_full`
* `Verif.Network.C20_fully_connected`
* `Verif.Network.C20_elementwise`
* `Verif.Network.C20_highway`
* `Verif.Network.C20_noop`
* `Verif.Network.C20_merge`
* `Verif.Network.C20_mask`
* `Verif.Network.C20_squared_difference`
* `Verif.Network.C20_squared_error`
* `Verif.Network.C20_softmax_ce`
* `Verif.Network.C20_sigmoid_ce`
* `Verif.Network.C20_binomial_ce`
* `Verif.Network.C20_l1`
* `Verif.Network.C20_l2`
* `Verif.Network.C20_loss`
* `Verif.Network.C20_network`
* `Verif.Network.C20_recurrent`
* `Verif.Network.C20_clockwork`
* `Verif.Network.C20_lstm`
* `Verif.Network.C20_clockwork_lstm`
* `Verif.Network.C20_batch_norm`
* `Verif.Network.C21_convolution`
* `Verif.Network.C21_avg_pooling`
* `Verif.Network.C21_max_pooling`
* `Verif.Network.C21_dropout_no_drop`
* `Verif.Network.C21_mask_full`
* `Verif.Network.C21_fully_connected`
* `Verif.Network.C21_elementwise`
* `Verif.Network.C21_highway`
* `Verif.Network.C21_noop`
* `Verif.Network.C21_merge`
* `Verif.Network.C21_mask`
* `Verif.Network.C21_squared_difference`
* `Verif.Network.C21_squared_error`
* `Verif.Network.C21_softmax_ce`
* `Verif.Network.C21_sigmoid_ce`
* `Verif.Network.C21_binomial_ce`
* `Verif.Network.C21_l1`
* `Verif.Network.C21_l2`
* `Verif.Network.C21_loss`
* `Verif.Network.C21_network`
* `Verif.Network.C21_recurrent`
* `Verif.Network.C21_clockwork`
* `Verif.Network.C21_lstm`
* `Verif.Network.C21_clockwork_lstm`
* `Verif.Network.C21_batch_norm`
* `Verif.Layers.C22_batch_norm`
* `Verif.Layers.C22_clockwork_lstm_context`
* `Verif.Layers.C22_clockwork_lstm_partial`
* `Verif.Layers.C22_convolution`
* `Verif.Layers.C22_lstm_context`
* `Verif.Layers.C22_lstm_partial`
* `Verif.Layers.C22_lstm_context_wrong`
* `Verif.Layers.C22_avg_pooling`
* `Verif.Layers.C22_max_pooling`
* `Verif.Layers.C22_fully_connected`
* `Verif.Layers.C22_elementwise`
* `Verif.Layers.C22_highway`
* `Verif.Layers.C22_noop`
* `Verif.Layers.C22_deltas_scaling`
* `Verif.Layers.C22_merge`
* `Verif.Layers.C22_mask`
* `Verif.Layers.C22_squared_error`
* `Verif.Layers.C22_squared_difference`
* `Verif.Layers.C22_l1`
* `Verif.Layers.C22_l2`
* `Verif.Layers.C22_loss`
* `Verif.Layers.C22_dropout_partial`
* `Verif.Layers.C22_dropout_wrong`
* `Verif.Layers.C22_sigmoid_ce`
* `Verif.Layers.C22_binomial_ce`
* `Verif.Layers.C22_softmax_ce`
* `Verif.Layers.C22_softmax_ce_clipped`
* `Verif.Layers.C22_recurrent`
* `Verif.Layers.C22_clockwork`
* `Verif.Scoring.C23_loss_values`
* `Verif.Scoring.C23_total`
* `Verif.Setup.C23_network`
* `Verif.References.C24_no_match`
* `Verif.References.C24_no_match_kind`
* `Verif.References.C24_values`
* `Verif.References.C24_paths`
* `Verif.References.C25_wildcard`
* `Verif.References.C25_literal`
* `Verif.References.C25_accepted`
* `Verif.References.C25_newline_quirk`
* `Verif.References.C26_set_once`
* `Verif.References.C26_reproducible`
* `Verif.References.C26_rejects`
* `Verif.References.C26_rejects_kind`
* `Verif.References.C26_sub_initializer_not_reseeded`
* `Verif.Describe.C27_roundtrip`
* `Verif.Describe.C27_basic`
* `Verif.Describe.C27_basic_equal`
* `Verif.Describe.C27_type_key`
* `Verif.SaveLoad.C28_roundtrip`
* `Verif.SaveLoad.C28_never_initialized`
* `Verif.SaveLoad.C28_uniform`
* `Verif.SaveLoad.C28_shared_object`
* `Verif.Data.C30_cover_once`
* `Verif.Data.C31_cut`
* `Verif.Data.C31_uncut`
* `Verif.Data.C31_lengths`
* `Verif.Data.C32_undivided_differs`
* `Verif.Data.C32_flip_changes_user_data`
* `Verif.Data.C33_pad`
* `Verif.Data.C33_pad_zero`
* `Verif.Data.C33_one_hot`
* `Verif.Data.C33_one_hot_negative`
* `Verif.Data.C33_multi_hot`
* `Verif.Training.C34_log_appends`
* `Verif.Training.C34_trace`
* `Verif.Training.C34_schedule`
* `Verif.Training.C34_logs`
* `Verif.Training.C35_stop`
* `Verif.Training.C35_stop_at_start`
* `Verif.Training.C35_complete_epochs`
* `Verif.Training.C36_stop_after_epoch`
* `Verif.Training.C39_linear`
* `Verif.Training.C39_exponential`
* `Verif.Training.C39_multistep`
* `Verif.Training.C39_multistep_between`
* `Verif.Training.C39_decrease_constant`
* `Verif.Training.C39_decrease_after`
* `Verif.Training.C40_sgd_run`
* `Verif.Training.C40_momentum`
* `Verif.Training.C40_momentum_constant`
* `Verif.Training.C40_nesterov`
* `Verif.Scoring.C41_losses`
* `Verif.Scoring.C41_total`
* `Verif.Scoring.C42_argmax`
* `Verif.Scoring.C42_accuracy`
* `Verif.Scoring.C42_accuracy_range`
* `Verif.Scoring.C42_hamming`
* `Verif.Scoring.C42_squared_error`
* `Verif.Modifiers.C43_clip_range`
* `Verif.Modifiers.C43_clip_values`
* `Verif.Modifiers.C43_clip_idempotent`
* `Verif.Modifiers.C43_norm`
* `Verif.Modifiers.C43_norm_bias`
* `Verif.Modifiers.C43_norm_idempotent`
* `Verif.Modifiers.C43_mask`
* `Verif.Modifiers.C43_mask_idempotent`
* `Verif.Modifiers.C44_frozen`
* `Verif.Modifiers.C44_applications`
* `Verif.Modifiers.C45_values`
* `Verif.Modifiers.C45_l2_gradient`
* `Verif.Modifiers.C45_l1_gradient`
* `Verif.Initializers.C46_fan_in`
* `Verif.Initializers.C46_fan_in_out`
* `Verif.Initializers.C46_fans_agree`
* `Verif.Initializers.C46_linear_differs`
* `Verif.Initializers.C46_uniform_interval`
* `Verif.Initializers.C46_uniform_range`
* `Verif.Initializers.C46_sparse_inputs`
* `Verif.Initializers.C46_sparse_outputs`
* `Verif.Initializers.C46_lstm_opt`
* `Verif.Initializers.C46_identity`
* `Verif.Initializers.C46_orthogonal`
* `Verif.Conv.C47_im2col`
* `Verif.Conv.C47_col2im`
* `Verif.Conv.C47_adjoint`
* `Verif.Conv.C47_forward`
* `Verif.Conv.C47_backward`
* `Verif.Pool.C48_max`
* `Verif.Pool.C48_max_none`
* `Verif.Pool.C48_max_backward`
* `Verif.Pool.C48_avg`
* `Verif.Pool.C48_avg_none`
* `Verif.Pool.C48_avg_backward`
* `Verif.Pool.C48_avg_adjoint`
* `Verif.Activations.C49_sigmoid`
* `Verif.Activations.C49_sigmoid_inplace`
* `Verif.Activations.C49_sigmoid_deriv`
* `Verif.Activations.C49_tanh_deriv`
* `Verif.Activations.C49_rel`
* `Verif.Activations.C49_rel_deriv`
* `Verif.Activations.C49_el`
* `Verif.Activations.C49_el_overflow`
* `Verif.Activations.C49_el_deriv`
* `Verif.Activations.C49_softmax`
* `Verif.Activations.C49_softmax_distribution`
* `Verif.Activations.C49_softmax_shift`
* `Verif.Layers.Merge.C50_merge`
* `Verif.Layers.Merge.C50_split`
* `Verif.Layers.Merge.C50_round_trip`
* `Verif.Data.C51_split`
* `Verif.Data.C51_shuffle`
* `Verif.Data.C52_extract`
* `Verif.Data.C52_duplicate_name`
* `Verif.Paths.C53_dotted_key`
* `Verif.Training.C54_order`
* `Verif.Layers.C55_recurrent`
* `Verif.Layers.C55_clockwork`
* `Verif.Layers.C55_lstm`
* `Verif.Layers.C55_clockwork_lstm`
* `Verif.Layers.C55_batch_norm`
* `Verif.Layers.C55_fully_connected_wrong`
* `Verif.Layers.C55_l2_wrong`
* `Verif.Layers.C55_convolution_wrong`
* `Verif.Conv.C56_positions`
* `Verif.Conv.C56_inside`
* `Verif.Conv.C56_conv`
* `Verif.Conv.C56_pool`
* `Verif.Conv.C56_conv_no_check`
* `Verif.Layers.C57_mask`
* `Verif.Layers.C57_independent`
* `Verif.Layers.C58_normalised`
* `Verif.Layers.C58_training_statistics`
* `Verif.Layers.C58_non_training`
* `Verif.Layers.C58_history`
* `Verif.Instantiate.C59_constructor`
* `Verif.Instantiate.C59_acceptable`
* `Verif.Instantiate.C59_complete`
* `Verif.Instantiate.C59_terminates`
* `Verif.Instantiate.C59_deterministic`
* `Verif.Instantiate.C59_layers`
* `Verif.Instantiate.C59_sources_ready`
* `Verif.Views.C60_arrays`
* `Verif.Views.C60_flatten_time`
* `Verif.Views.C60_flatten_all_but_last`
* `Verif.Views.C60_copy`
* `Verif.Views.C60_contiguous`
* `Verif.Views.C60_copy_happens`
* `Verif.Layers.C61_activation`
* `Verif.Layers.C61_fully_connected`
* `Verif.Layers.C61_elementwise`
* `Verif.Layers.C61_highway`
* `Verif.Layers.C61_copy`
* `Verif.Layers.C61_merge`
* `Verif.Layers.C61_mask`
* `Verif.Layers.C61_dropout`
* `Verif.Layers.C61_dropout_mean`
* `Verif.Layers.C61_squared_error`
* `Verif.Layers.C61_squared_difference`
* `Verif.Layers.C61_l1`
* `Verif.Layers.C61_l2`
* `Verif.Layers.C61_loss`
* `Verif.Layers.C61_softmax_ce`
* `Verif.Layers.C61_sigmoid_ce`
* `Verif.Layers.C61_binomial_ce`
* `Verif.Layers.C61_batch_norm`
* `Verif.Layers.C61_recurrent`
* `Verif.Layers.C61_clockwork`
* `Verif.Layers.C61_lstm`
* `Verif.Layers.C61_clockwork_lstm`
* `Verif.Modifiers.C62_install`
* `Verif.Modifiers.C62_in_order`
* `Verif.Modifiers.C62_nowhere_else`
* `Verif.Modifiers.C62_own`
* `Verif.Modifiers.C62_fallback`
* `Verif.Modifiers.C62_apply_weights`
* `Verif.Modifiers.C62_apply_gradients`
* `Verif.Modifiers.C62_freeze`
* `Verif.Setup.C63_declares`
* `Verif.Setup.C63_ready`
* `Verif.Setup.C63_memory`
* `Verif.Shapes.C64_passes_partial`
* `Verif.Shapes.C64_views`
* `Verif.Shapes.C64_binomial_rank`
* `Verif.Shapes.C64_unknown_activation`
* `Verif.Shapes.C64_merge_nothing`
* `Verif.Gpu.C65_im2col`
* `Verif.Gpu.C65_col2im`
* `Verif.Gpu.C65_conv_forward`
* `Verif.Gpu.C65_conv_backward`
* `Verif.Gpu.C65_kernel`
* `Verif.Gpu.C65_elements`
* `Verif.Gpu.C65_elementwise`
* `Verif.Gpu.C65_binarize`
* `Verif.Gpu.C65_binarize_differs`
* `Verif.Gpu.C65_index`
* `Verif.Gpu.C65_broadcast`
* `Verif.Gpu.C65_modulo_partial`
* `Verif.Gpu.C65_modulo_differs`
* `Verif.Gpu.C65_merge_partial`
* `Verif.Gpu.C65_merge_rows_lost`
* `Verif.Gpu.C65_split_partial`
* `Verif.Gpu.C65_split_rows_lost`
* `Verif.Gpu.C65_maxpool_forward`
* `Verif.Gpu.C65_maxpool_backward`
* `Verif.Gpu.C65_avgpool_forward`
* `Verif.Gpu.C65_avgpool_backward`
* `Verif.Gpu.C65_softmax`
* `Verif.Training.C66_logs_shown`
* `Verif.Training.C66_early_stopper`
* `Verif.Training.C66_threshold`
* `Verif.Training.C66_threshold_fails`
* `Verif.Training.C66_nan_sound`
* `Verif.Training.C66_nan_complete`
* `Verif.Training.C66_stats`
* `Verif.Training.C66_monitor_deltas_fails`
* `Verif.Training.C66_save_best`
* `Verif.Training.C66_schedule`
* `Verif.Training.C66_linear`
* `Verif.Training.C66_exponential`
* `Verif.Training.C66_watcher`
* `Verif.Training.C66_watcher_silent`
* `Verif.Training.C66_monitor`
* `Verif.Training.C66_progress_bar`
* `Verif.Training.C66_progress_bar_second_training`
* `Verif.Training.C66_progress_bar_after_stop`
* `Verif.NetSpec.C67_supported`
* `Verif.NetSpec.C67_network`
* `Verif.NetSpec.C68_data_name`
* `Verif.NetSpec.C68_legal`
* `Verif.NetSpec.C68_letters_touch`
* `Verif.NetSpec.C68_white_space`
* `Verif.NetSpec.C68_probability_integer`
* `Verif.NetSpec.C68_further_arguments`
* `Verif.NetSpec.C68_other_text_skipped`
* `Verif.NetSpec.C68_numbers`
* `Verif.NetSpec.C68_layers`
* `Verif.NetSpec.C68_network`
* `Verif.NetSpec.C68_works`
* `Verif.Noise.C69_gaussian`
* `Verif.Noise.C69_salt_and_pepper`
* `Verif.Noise.C69_probabilities`
* `Verif.Noise.C69_never_is_not_never`
* `Verif.Noise.C69_accepts`
* `Verif.Access.C70_network`
* `Verif.Access.C70_adjust_hidden`
* `Verif.Access.C70_items_hidden`
* `Verif.Access.C70_parameters_hidden`
* `Verif.Access.C70_access`
* `Verif.Buffers.C71_views`
* `Verif.Layout.C71_same_place`
* `Verif.Layout.C71_same_sharing`
* `Verif.Memory.C72_gradients`
* `Verif.Memory.C72_layer_gradients`
* `Verif.Memory.C72_data_deltas`
* `Verif.Memory.C72_outputs`
* `Verif.Memory.C72_parameters_kept`
* `Verif.Memory.C72_rerun`
* `Verif.Memory.C72_read`
* `Verif.Memory.C72_clear`
* `Verif.Memory.C72_honest`
* `Verif.Memory.C72_differentiates`
* `Verif.References.C73_forms`
* `Verif.References.C73_combined`
* `Verif.References.C73_conflict`
* `Verif.References.C73_held`
* `Verif.References.C73_twice_fails`
* `Verif.References.C73_again`
* `Verif.References.C73_lists`
* `Verif.References.C73_modifiers`
* `Verif.Memory.C74_fully_connected`
* `Verif.Memory.C74_squared_error`
* `Verif.Memory.C74_loss`
* `Verif.Memory.C74_elementwise`
* `Verif.Memory.C74_gradients`
* `Verif.Memory.C74_layer_gradients`
* `Verif.Memory.C74_data_deltas`
* `Verif.Memory.C74_forward`
* `Verif.Memory.C74_parameters_kept`
* `Verif.Memory.C74_rerun`
* `Verif.EndToEnd.C75_network`
* `Verif.EndToEnd.C75_gradients`
* `Verif.EndToEnd.C75_smooth`
* `Verif.EndToEnd.C76_network`
* `Verif.EndToEnd.C76_connections`
* `Verif.EndToEnd.C76_gradients`
* `Verif.Memory.C76_formulas`
* `Verif.Memory.C76_inputs`
* `Verif.Memory.C76_input_copy`
* `Verif.Memory.C76_total_loss`
* `Verif.Session.C77_loss`
* `Verif.Session.C77_gradients`
* `Verif.Session.C77_training`
* `Verif.Sequence.C78_sequence`
* `Verif.Sequence.C78_pieces`
* `Verif.Evaluate.C79_losses`
* `Verif.Evaluate.C79_scores`
* `Verif.Evaluate.C79_extract`
* `Verif.Constrained.C80_training`
* `Verif.Constrained.C80_parts`
* `Verif.Constrained.C80_constraints`
* `Verif.Constrained.C80_freeze_before`
* `Verif.Constrained.C80_freeze_first`
* `Verif.Constrained.C80_decay`
* `Verif.Determined.C81_gradients`
* `Verif.Determined.C81_training`
* `Verif.Determined.C81_history`
* `Verif.Determined.C81_resume`
* `Verif.Reload.C81_set_handler`
* `Verif.Trainer.C82_training`
* `Verif.Trainer.C82_best`
* `Verif.Trainer.C82_runs`
* `Verif.Trainer.C82_schedule`
* `Verif.Reload.C83_layers`
* `Verif.Reload.C83_outputs`
* `Verif.Reload.C83_training`
* `Verif.Reload.C83_best`
* `Verif.Descent.C84_derivative`
* `Verif.Descent.C84_descent`
* `Verif.Descent.C84_periods`
* `Verif.Parts.C84_everywhere`
* `Verif.Parts.C85_order_nesterov`
* `Verif.Parts.C85_parts`
* `Verif.Parts.C85_order`
* `Verif.Iterate.C86_losses`
* `Verif.Iterate.C86_scores`
* `Verif.Iterate.C86_extract`
* `Verif.Iterate.C86_gradients`
* `Verif.Padding.C87_training_nesterov`
* `Verif.Padding.C87_losses`
* `Verif.Padding.C87_gradients`
* `Verif.Padding.C87_training`
* `Verif.Padding.C87_evaluate`
* `Verif.Padding.C87_scores`
* `Verif.SpecNet.C88_layout`
* `Verif.SpecNet.C88_derivative`
* `Verif.SpecNet.C88_descent`
* `Verif.Data.C89_file`
* `Verif.Data.C89_same_as_extract`
* `Verif.Data.C89_one_step`
* `Verif.Evaluate.C89_network`
* `Verif.Checkpoint.C90_crash`
* `Verif.Checkpoint.C90_one_save`
* `Verif.Checkpoint.C90_two_files`
* `Verif.Checkpoint.C90_one_file`
* `Verif.Checkpoint.C90_undescribable`
* `Verif.Checkpoint.C90_training`
* `Verif.Checkpoint.C90_killed`
* `Verif.Checkpoint.C90_resume`
* `Verif.Info.C91_info`
* `Verif.Locality.C92_gradients`
* `Verif.Locality.C92_locality`
* `Verif.Locality.C92_predictions`
* `Verif.Locality.C92_untrained`

## propext, Quot.sound

* `Verif.Structure.C14_combine`
* `Verif.Structure.C14_memory_vectors_partial`
* `Verif.Structure.C14_memory_not_concat`
* `Verif.Random.C29_set_seed`
* `Verif.Random.C29_copy`
* `Verif.Random.C29_program`
* `Verif.Random.C29_children`
* `Verif.Random.C29_unseeded`
* `Verif.Data.C32_minibatches_partial`
* `Verif.Data.C32_undivided_accumulates`
* `Verif.Data.C33_crop`
* `Verif.Data.C33_crop_total`
* `Verif.Data.C33_flip`
* `Verif.Training.C37_decision`
* `Verif.Training.C37_no_improvement`
* `Verif.Training.C38_best`
* `Verif.Training.C38_nothing`
* `Verif.Training.C39_linear_zero_changes`
* `Verif.Training.C39_exponential_step`
* `Verif.Training.C40_sgd_step`
* `Verif.Training.C40_nesterov_step`
* `Verif.Training.C40_no_momentum`
* `Verif.Scoring.C41_scores`
* `Verif.Scoring.C42_masked`
* `Verif.Paths.C53_flatten_keys`
* `Verif.Paths.C53_flatten_keys_nodup`
* `Verif.Paths.C53_normalized`
* `Verif.Paths.C53_dots_in_the_middle`
* `Verif.Paths.C53_nested_indices`
* `Verif.Training.C54_added`
* `Verif.Training.C54_shared_hook`
* `Verif.Conv.C56_zero_stride`
* `Verif.Conv.C56_im2col`
* `Verif.Data.C89_duplicate_name`
