{
 "claims": [
  {
   "property": "C01",
   "status": "proved",
   "theorems": [
    "Trixy.C01_in_bounds",
    "Trixy.C01_injective",
    "Trixy.C01_surjective",
    "Trixy.C01_matrix",
    "Trixy.C01_overflow_witness",
    "Trixy.C01_write",
    "Trixy.C01_write_matrix"
   ],
   "note": "bijection in size_t arithmetic when the element count fits; overflow witness otherwise"
  },
  {
   "property": "C02",
   "status": "proved",
   "theorems": [
    "Trixy.C02_memory_safe"
   ],
   "note": "all histories by induction on an ownership invariant"
  },
  {
   "property": "C03",
   "status": "proved",
   "theorems": [
    "Trixy.C03_copy_ctor_deep",
    "Trixy.set1_sameExcept"
   ],
   "note": ""
  },
  {
   "property": "C04",
   "status": "partial",
   "theorems": [
    "Trixy.C04_vector_copy_violated",
    "Trixy.C04_vector_copy_partial"
   ],
   "note": "the code violates the property for every non-empty vector; negation proved for all of them, only the empty case holds"
  },
  {
   "property": "C05",
   "status": "partial",
   "theorems": [
    "Trixy.C05_copy_assign_partial",
    "Trixy.C05_smaller_violated",
    "Trixy.C05_larger_violated"
   ],
   "note": "violated by the code unless sizes are equal (vectors: always correct); all three cases proved"
  },
  {
   "property": "C06",
   "status": "partial",
   "theorems": [
    "Trixy.C06_resized_matrix_copy_violated",
    "Trixy.C06_valued_matrix_copy_partial"
   ],
   "note": "violated by the code for every non-empty size; holds for depth-1 matrices"
  },
  {
   "property": "C07",
   "status": "proved",
   "theorems": [
    "Trixy.C07_move_ctor",
    "Trixy.C07_move_assign"
   ],
   "note": ""
  },
  {
   "property": "C08",
   "status": "proved",
   "theorems": [
    "Trixy.C08_add",
    "Trixy.C08_sub",
    "Trixy.C08_mul",
    "Trixy.C08_add2",
    "Trixy.C08_sub2",
    "Trixy.C08_mul2",
    "Trixy.C08_join",
    "Trixy.C08_join2",
    "Trixy.C08_apply",
    "Trixy.C08_apply2",
    "Trixy.C08_fill",
    "Trixy.C08_fill_generator",
    "Trixy.C08_copy",
    "Trixy.C08_alias_patterns"
   ],
   "note": ""
  },
  {
   "property": "C09",
   "status": "partial",
   "theorems": [
    "Trixy.C09_const_members_violated",
    "Trixy.C09_const_members_partial"
   ],
   "note": "violated by the code for every non-empty tensor"
  },
  {
   "property": "C10",
   "status": "proved",
   "theorems": [
    "Trixy.C10_view_aliases",
    "Trixy.C10_views_never_own",
    "Trixy.C10_view_copies",
    "Trixy.C10_view_size",
    "Trixy.C10_view_range",
    "Trixy.C02_memory_safe"
   ],
   "note": ""
  },
  {
   "property": "C100",
   "status": "partial",
   "theorems": [
    "Trixy.C100_same_shape_partial",
    "Trixy.C100_losses",
    "Trixy.C100_other_size_violated"
   ],
   "note": "partial: proved for added layers with the output shape the network had when the training object was created; refuted for added dense layers of another size"
  },
  {
   "property": "C101",
   "status": "proved",
   "theorems": [
    "Trixy.C101_copies",
    "Trixy.C101_twins",
    "Trixy.C101_uninitialised",
    "Trixy.C101_constant",
    "Trixy.C101_library",
    "Trixy.C101_library_floats"
   ],
   "note": "the output units and the input units are compared only with themselves (inputs: as the samples allow); addresses of different parameters must differ; Adam with decay rates in [0,1)"
  },
  {
   "property": "C102",
   "status": "proved",
   "theorems": [
    "Trixy.C102_argmax",
    "Trixy.C102_network",
    "Trixy.C102_accuracy",
    "Trixy.C102_others"
   ],
   "note": "real arithmetic: in floating point different values can round to the same one"
  },
  {
   "property": "C103",
   "status": "proved",
   "theorems": [
    "Trixy.C103_batch",
    "Trixy.C103_mini_batch",
    "Trixy.C103_loss_gd",
    "Trixy.C103_loss_sgd",
    "Trixy.C103_loss_momentum",
    "Trixy.C103_loss_nestorov",
    "Trixy.C103_linear",
    "Trixy.C103_poly",
    "Trixy.C103_scores"
   ],
   "note": "exact arithmetic; dense networks"
  },
  {
   "property": "C104",
   "status": "proved",
   "theorems": [
    "Trixy.C104_fit",
    "Trixy.C104_library",
    "Trixy.C104_zero",
    "Trixy.C104_constant",
    "Trixy.C104_gd",
    "Trixy.C104_momentum",
    "Trixy.C104_nestorov",
    "Trixy.C104_adagrad",
    "Trixy.C104_rmsprop",
    "Trixy.C104_adam"
   ],
   "note": "StoGradDescent is excluded: its weight decay moves a network that fits (example)"
  },
  {
   "property": "C105",
   "status": "proved",
   "theorems": [
    "Trixy.C105_predict",
    "Trixy.C105_hidden",
    "Trixy.C105_hidden_training",
    "Trixy.C105_gd",
    "Trixy.C105_sgd",
    "Trixy.C105_momentum",
    "Trixy.C105_nestorov",
    "Trixy.C105_adagrad",
    "Trixy.C105_rmsprop",
    "Trixy.C105_adam",
    "Trixy.C105_library"
   ],
   "note": "MSLE is left out of the library theorem because it is partial (C67); the optimizers with tables need distinct addresses of the parameter arrays (C61)"
  },
  {
   "property": "C106",
   "status": "proved",
   "theorems": [
    "Trixy.C106_shift",
    "Trixy.C106_local",
    "Trixy.C106_linear",
    "Trixy.C106_padding",
    "Trixy.C106_rename",
    "Trixy.C106_pointwise",
    "Trixy.C106_dense"
   ],
   "note": ""
  },
  {
   "property": "C107",
   "status": "proved",
   "theorems": [
    "Trixy.C107_monotone",
    "Trixy.C107_library",
    "Trixy.C107_compose",
    "Trixy.C107_rearrange"
   ],
   "note": "the training layer is not covered: its value does not depend on the input (C35)"
  },
  {
   "property": "C108",
   "status": "proved",
   "theorems": [
    "Trixy.C108_history",
    "Trixy.C108_loss",
    "Trixy.C108_shared",
    "Trixy.C108_library"
   ],
   "note": "C80 has the corresponding statement for dense networks with existence of the result; here any history and any mix of layers"
  },
  {
   "property": "C109",
   "status": "partial",
   "theorems": [
    "Trixy.C109_gd",
    "Trixy.C109_sgd",
    "Trixy.C109_momentum",
    "Trixy.C109_nestorov",
    "Trixy.C109_adagrad",
    "Trixy.C109_rmsprop",
    "Trixy.C109_adam",
    "Trixy.C109_enough",
    "Trixy.C109_terminates_violated"
   ],
   "note": "the bounds hold in full; the behaviour on failure is violated and the negation proved; nodes of std::unordered_map are not counted"
  },
  {
   "property": "C11",
   "status": "proved",
   "theorems": [
    "Trixy.C11_reshape",
    "Trixy.C11_reshape_matrix"
   ],
   "note": ""
  },
  {
   "property": "C110",
   "status": "proved",
   "theorems": [
    "Trixy.C110_superpose_linear",
    "Trixy.C110_superpose_poly",
    "Trixy.C110_units_linear",
    "Trixy.C110_units_poly",
    "Trixy.C110_repeat_linear",
    "Trixy.C110_repeat_poly",
    "Trixy.C110_more_features",
    "Trixy.C110_higher_degree",
    "Trixy.C110_interpolation",
    "Trixy.C110_mean_linear",
    "Trixy.C110_mean_poly",
    "Trixy.C110_poly_is_linear"
   ],
   "note": "exact arithmetic (ordered field); the transformed data are identified as well, which is proved rather than assumed"
  },
  {
   "property": "C111",
   "status": "proved",
   "theorems": [
    "Trixy.C111_rescale",
    "Trixy.C111_sigmoid_flip",
    "Trixy.C111_tanh_sigmoid",
    "Trixy.C111_merge",
    "Trixy.C111_softmax_shift",
    "Trixy.C111_two_classes"
   ],
   "note": "real arithmetic; both networks are given by their parameters and are shown to exist for every description (isLib_exists)"
  },
  {
   "property": "C112",
   "status": "proved",
   "theorems": [
    "Trixy.C112_lipschitz",
    "Trixy.C112_margin",
    "Trixy.C112_stable",
    "Trixy.C112_parameters"
   ],
   "note": "real arithmetic; rounding is C78"
  },
  {
   "property": "C113",
   "status": "proved",
   "theorems": [
    "Trixy.C113_limit",
    "Trixy.C113_stops",
    "Trixy.C113_rest"
   ],
   "note": "real arithmetic; GELU excluded because its derivative is wrong (C49)"
  },
  {
   "property": "C114",
   "status": "proved",
   "theorems": [
    "Trixy.C114_gd",
    "Trixy.C114_sgd",
    "Trixy.C114_momentum",
    "Trixy.C114_nestorov",
    "Trixy.C114_adagrad",
    "Trixy.C114_rmsprop",
    "Trixy.C114_adam",
    "Trixy.C114_batch",
    "Trixy.C114_mini_batch",
    "Trixy.C114_stochastic",
    "Trixy.C114_library"
   ],
   "note": "exact arithmetic; parameter arrays at pairwise different addresses; stochastic() from a network that is not in the accumulating state (C29); the Adam counter counts array updates, not updates of one array (C48)"
  },
  {
   "property": "C115",
   "status": "proved",
   "theorems": [
    "Trixy.C115_momentum",
    "Trixy.C115_nestorov",
    "Trixy.C115_adagrad",
    "Trixy.C115_rmsprop",
    "Trixy.C115_adam",
    "Trixy.C115_sgd"
   ],
   "note": "real arithmetic; GELU excluded because its derivative is wrong (C49); gradient descent is C113"
  },
  {
   "property": "C116",
   "status": "proved",
   "theorems": [
    "Trixy.C116_regret",
    "Trixy.C116_best",
    "Trixy.C116_learns",
    "Trixy.C116_regression",
    "Trixy.C116_object"
   ],
   "note": "real arithmetic; the client program calls the layer directly because Training needs at least two layers (C38_single_layer); NLL targets have one class, CCE targets sum to 1; the mean CCE loss is the textbook one without the 1e-9 the class adds to predictions when it reports values (its fused derivative does not contain it)"
  },
  {
   "property": "C117",
   "status": "proved",
   "theorems": [
    "Trixy.C117_range",
    "Trixy.C117_full_global",
    "Trixy.C117_classes",
    "Trixy.C117_mse",
    "Trixy.C117_mae",
    "Trixy.C117_nll",
    "Trixy.C117_cce",
    "Trixy.C117_network",
    "Trixy.C117_learns"
   ],
   "note": "real arithmetic; rounding of double is not modelled; the product of samples and components is below 2^64 where global() multiplies them"
  },
  {
   "property": "C118",
   "status": "proved",
   "theorems": [
    "Trixy.C118_rule",
    "Trixy.C118_gd",
    "Trixy.C118_sgd",
    "Trixy.C118_momentum",
    "Trixy.C118_nestorov",
    "Trixy.C118_adagrad",
    "Trixy.C118_rmsprop",
    "Trixy.C118_adam",
    "Trixy.C118_stops",
    "Trixy.C118_rest",
    "Trixy.C118_descent",
    "Trixy.C118_reported"
   ],
   "note": "real arithmetic; rounding of double is not modelled; convergence itself is a hypothesis, not a conclusion"
  },
  {
   "property": "C119",
   "status": "proved",
   "theorems": [
    "Trixy.C119_batch",
    "Trixy.C119_mini_batch",
    "Trixy.C119_stochastic",
    "Trixy.C119_class",
    "Trixy.C119_real_losses",
    "Trixy.C119_real_derivatives"
   ],
   "note": "gradient descent only; MSLE is left out because its exact version divides by zero for some inputs; no rate of convergence is claimed; stochastic() for networks not trained in batches before (C29)"
  },
  {
   "property": "C12",
   "status": "proved",
   "theorems": [
    "Trixy.C12_argmax",
    "Trixy.C12_argmin",
    "Trixy.C12_max_min",
    "Trixy.C12_unique",
    "Trixy.C12_empty"
   ],
   "note": ""
  },
  {
   "property": "C120",
   "status": "proved",
   "theorems": [
    "Trixy.C120_forgets",
    "Trixy.C120_optimum",
    "Trixy.C120_influence",
    "Trixy.C120_bounded"
   ],
   "note": "real arithmetic; client program calling the layer directly, as in C116; NLL targets have one class, CCE targets sum to 1; CCE is the textbook loss without the 1e-9 of the reported value (the fused derivative does not contain it)"
  },
  {
   "property": "C121",
   "status": "proved",
   "theorems": [
    "Trixy.C121_regret",
    "Trixy.C121_mistakes",
    "Trixy.C121_margin",
    "Trixy.C121_rate"
   ],
   "note": "Real arithmetic. A wrong prediction is one whose first maximum is not that of the target. For CCE with soft targets (regret) the weights must be non-negative."
  },
  {
   "property": "C122",
   "status": "proved",
   "theorems": [
    "Trixy.C122_momentum",
    "Trixy.C122_nestorov",
    "Trixy.C122_energy",
    "Trixy.C122_limit",
    "Trixy.C122_learns"
   ],
   "note": "Real arithmetic; new optimizer object; bias and weights at different addresses. (4) needs non-negative targets for CCE."
  },
  {
   "property": "C123",
   "status": "proved",
   "theorems": [
    "Trixy.C123_limit",
    "Trixy.C123_steps",
    "Trixy.C123_learns"
   ],
   "note": "Real arithmetic; new optimizer object; bias and weights at different addresses; non-negative targets for CCE."
  },
  {
   "property": "C124",
   "status": "proved",
   "theorems": [
    "Trixy.C124_band",
    "Trixy.C124_restless",
    "Trixy.C124_loss"
   ],
   "note": "Real arithmetic; new optimizer object; bias and weights at different addresses."
  },
  {
   "property": "C125",
   "status": "partial",
   "theorems": [
    "Trixy.C125_gd",
    "Trixy.C125_sgd",
    "Trixy.C125_momentum",
    "Trixy.C125_nestorov",
    "Trixy.C125_adagrad",
    "Trixy.C125_rmsprop",
    "Trixy.C125_adam",
    "Trixy.C125_batch",
    "Trixy.C125_mini_batch",
    "Trixy.C125_stochastic",
    "Trixy.C125_first_partial",
    "Trixy.C125_dense_partial",
    "Trixy.C125_pile",
    "Trixy.C125_violated",
    "Trixy.tells_momentum",
    "Trixy.tells_nestorov",
    "Trixy.tells_adagrad",
    "Trixy.tells_rmsprop"
   ],
   "note": "Violated by the code: the gradient members of a convolution are never cleared, so from the second step on the optimizer is handed the gradients of all earlier steps as well. Proved for every optimizer class: the exact recurrence the program follows in all three modes (C125_batch, C125_mini_batch, C125_stochastic), the closed form of what piles up (C125_pile: in stochastic training the sum of all gradients so far), that the first step and stacks without convolutions follow the rule (_partial), and that after two epochs of batch a convolution parameter with non-zero first gradient differs from what the rule prescribes (C125_violated, for momentum, Nesterov, AdaGrad and RMSProp by the tells_ theorems; for Adam the recurrence is proved but two different gradients can give the same step, so the deviation is not claimed for every gradient)."
  },
  {
   "property": "C126",
   "status": "proved",
   "theorems": [
    "Trixy.C126_exists",
    "Trixy.C126_memorises",
    "Trixy.C126_no_loss",
    "Trixy.C126_classifies",
    "Trixy.C126_approximates",
    "Trixy.C126_identity",
    "Trixy.C126_no_xor",
    "Trixy.C126_xor"
   ],
   "note": "Over the reals. Existence of parameters; that training finds them is not claimed (C116, C118 say where training leads)."
  },
  {
   "property": "C127",
   "status": "proved",
   "theorems": [
    "Trixy.C127_unseen",
    "Trixy.C127_dead_input",
    "Trixy.C127_nearest",
    "Trixy.C127_regression",
    "Trixy.C127_distributions",
    "Trixy.C127_smallest",
    "Trixy.C127_diverges"
   ],
   "note": "Over the reals, for a single layer trained by a client program (Spec/Fit), as in C116."
  },
  {
   "property": "C128",
   "status": "proved",
   "theorems": [
    "Trixy.C128_descends",
    "Trixy.C128_balance",
    "Trixy.C128_mean",
    "Trixy.C128_single",
    "Trixy.C128_sharp"
   ],
   "note": "Over the reals, for a single layer trained by a client program (Spec/Fit), as in C116. CCE targets are assumed non-negative for the balance."
  },
  {
   "property": "C129",
   "status": "proved",
   "theorems": [
    "Trixy.C129_distance",
    "Trixy.C129_total",
    "Trixy.C129_converges"
   ],
   "note": "Over the reals, for a single layer trained by a client program (Spec/Fit), as in C116."
  },
  {
   "property": "C13",
   "status": "proved",
   "theorems": [
    "Trixy.C13_accumulate",
    "Trixy.C13_mean",
    "Trixy.C13_std",
    "Trixy.C13_mean_between",
    "Trixy.C13_std_zero_iff",
    "Trixy.C13_mean_empty"
   ],
   "note": ""
  },
  {
   "property": "C130",
   "status": "proved",
   "theorems": [
    "Trixy.C130_forgets",
    "Trixy.C130_cycle",
    "Trixy.C130_rate",
    "Trixy.C130_off"
   ],
   "note": "Over the reals, for a single layer trained by a client program (Spec/Fit), as in C116 and C129. The off-optimum statement is for the two-sample cycle with all rates in (0, 1]."
  },
  {
   "property": "C131",
   "status": "proved",
   "theorems": [
    "Trixy.C131_passes",
    "Trixy.C131_some",
    "Trixy.C131_cycle"
   ],
   "note": "Over the reals, for a single layer trained by a client program (Spec/Fit), as in C116. CCE: target weights not negative."
  },
  {
   "property": "C132",
   "status": "proved",
   "theorems": [
    "Trixy.C132_optimum",
    "Trixy.C132_infimum",
    "Trixy.C132_some",
    "Trixy.C132_object"
   ],
   "note": "Over the reals, for a single layer trained by a client program (Spec/Schedule), as in C116. CCE: target weights not negative."
  },
  {
   "property": "C14",
   "status": "partial",
   "theorems": [
    "Trixy.C14_axisX",
    "Trixy.C14_axisY_violated"
   ],
   "note": "Axis::X proved; Axis::Y is violated by the code for every matrix with a row, negation proved"
  },
  {
   "property": "C15",
   "status": "proved",
   "theorems": [
    "Trixy.C15_concat"
   ],
   "note": ""
  },
  {
   "property": "C16",
   "status": "proved",
   "theorems": [
    "Trixy.C16_inverse_cdf",
    "Trixy.C16_no_impossible_outcome"
   ],
   "note": ""
  },
  {
   "property": "C17",
   "status": "proved",
   "theorems": [
    "Trixy.C17_iff",
    "Trixy.C17_exact",
    "Trixy.C17_full_width_visits_nothing",
    "Trixy.C17_single_column_skips_last"
   ],
   "note": "exact characterisation: holds iff 2 <= w < W"
  },
  {
   "property": "C18",
   "status": "proved",
   "theorems": [
    "Trixy.C18_row",
    "Trixy.C18_col",
    "Trixy.C18_algebra",
    "Trixy.C18_inner"
   ],
   "note": "fold order for any arithmetic; matrix product over semirings"
  },
  {
   "property": "C19",
   "status": "proved",
   "theorems": [
    "Trixy.C19_accumulates",
    "Trixy.C19_product",
    "Trixy.C19_accumulates_sum"
   ],
   "note": ""
  },
  {
   "property": "C20",
   "status": "proved",
   "theorems": [
    "Trixy.C20_tensordot",
    "Trixy.C20_transpose",
    "Trixy.C20_transpose_twice",
    "Trixy.C20_transpose_product"
   ],
   "note": ""
  },
  {
   "property": "C21",
   "status": "proved",
   "theorems": [
    "Trixy.C21_invertible",
    "Trixy.C21_singular",
    "Trixy.C21_value"
   ],
   "note": "Gauss-Jordan with partial pivoting over any linearly ordered field, any size"
  },
  {
   "property": "C22",
   "status": "proved",
   "theorems": [
    "Trixy.C22_refines_list"
   ],
   "note": "refinement of an abstract list for all histories over any number of containers"
  },
  {
   "property": "C23",
   "status": "partial",
   "theorems": [
    "Trixy.C23_copy_ctor_violated",
    "Trixy.C23_copy_ctor_partial"
   ],
   "note": "violated by the code whenever the source has spare capacity (proved for every reachable such state); holds iff size = capacity"
  },
  {
   "property": "C24",
   "status": "proved",
   "theorems": [
    "Trixy.C24_lifetimes"
   ],
   "note": ""
  },
  {
   "property": "C25",
   "status": "proved",
   "theorems": [
    "Trixy.C25_amortised"
   ],
   "note": ""
  },
  {
   "property": "C26",
   "status": "proved",
   "theorems": [
    "Trixy.C26_forward",
    "Trixy.C26_history",
    "Trixy.C26_history_free",
    "Trixy.C26_raw"
   ],
   "note": ""
  },
  {
   "property": "C27",
   "status": "proved",
   "theorems": [
    "Trixy.C27_backward",
    "Trixy.C27_curve",
    "Trixy.C27_partials"
   ],
   "note": ""
  },
  {
   "property": "C28",
   "status": "proved",
   "theorems": [
    "Trixy.C28_update_hands",
    "Trixy.C28_accumulated",
    "Trixy.C28_latest",
    "Trixy.C28_new_layer"
   ],
   "note": ""
  },
  {
   "property": "C29",
   "status": "partial",
   "theorems": [
    "Trixy.C29_violated",
    "Trixy.C29_clean_partial",
    "Trixy.C29_layer_violated"
   ],
   "note": "The property is false of the code: C29_violated shows that after batch() the result of stochastic() does not depend on its samples. C29_clean_partial proves it for networks whose accumulated flags are unset (never batch-trained)."
  },
  {
   "property": "C30",
   "status": "proved",
   "theorems": [
    "Trixy.C30_geometry"
   ],
   "note": "size_t arithmetic equals ordinary arithmetic for every fitting geometry; last window fits and one more stride does not"
  },
  {
   "property": "C31",
   "status": "proved",
   "theorems": [
    "Trixy.C31_forward",
    "Trixy.C31_history"
   ],
   "note": "cross-correlation over an integer-indexed zero-padded input; no undefined behaviour for every call history"
  },
  {
   "property": "C32",
   "status": "proved",
   "theorems": [
    "Trixy.C32_backward",
    "Trixy.C32_adjoint",
    "Trixy.C32_curve",
    "Trixy.C32_partials"
   ],
   "note": "explicit gradients, adjoint identity over any commutative semiring, derivative along curves and partial derivatives over the reals"
  },
  {
   "property": "C33",
   "status": "partial",
   "theorems": [
    "Trixy.C33_actual",
    "Trixy.C33_first_update_partial",
    "Trixy.C33_violated"
   ],
   "note": "violated by the code: exact behaviour for every history, the part that holds (first update), and the negation"
  },
  {
   "property": "C34",
   "status": "proved",
   "theorems": [
    "Trixy.C34_forward",
    "Trixy.C34_history",
    "Trixy.C34_nondividing"
   ],
   "note": "window maxima for every dividing stride and history; out of bounds proved for every non-dividing stride"
  },
  {
   "property": "C35",
   "status": "partial",
   "theorems": [
    "Trixy.C35_violated",
    "Trixy.C35_fresh_violated",
    "Trixy.C35_defined_partial"
   ],
   "note": "violated by the code: the value() of the training layer is the activation of the back-propagation buffer, independent of the input (negation proved for every state); definedness proved"
  },
  {
   "property": "C36",
   "status": "proved",
   "theorems": [
    "Trixy.C36_backward"
   ],
   "note": ""
  },
  {
   "property": "C37",
   "status": "proved",
   "theorems": [
    "Trixy.C37_layer",
    "Trixy.C37_feedforward",
    "Trixy.C37_history",
    "Trixy.C37_empty",
    "Trixy.rawPool_computes"
   ],
   "note": "Layers: FullyConnected (training and inference), Convolutional, inference MaxPooling. The training MaxPooling layer is not history-free (C35) and is excluded, as the property says. Element type any commutative semiring with a linear order."
  },
  {
   "property": "C38",
   "status": "proved",
   "theorems": [
    "Trixy.C38_backprop",
    "Trixy.C38_partials",
    "Trixy.C38_single_layer",
    "Trixy.net_partials",
    "Trixy.C38_library"
   ],
   "note": "Value form for any element type; derivative form over the reals for element-wise activations and a loss whose df is its gradient at the prediction."
  },
  {
   "property": "C39",
   "status": "proved",
   "theorems": [
    "Trixy.C39_batch",
    "Trixy.C39_descent",
    "Trixy.C39_schedule",
    "Trixy.C39_visits",
    "Trixy.avgStep_descent"
   ],
   "note": "Exact update for any element type (evaluation order of the code) and, over the reals, gradient descent on the mean loss; schedule for every network, optimizer and loss."
  },
  {
   "property": "C40",
   "status": "proved",
   "theorems": [
    "Trixy.C40_schedule",
    "Trixy.C40_visits",
    "Trixy.C40_zero",
    "Trixy.C40_gd"
   ],
   "note": ""
  },
  {
   "property": "C41",
   "status": "proved",
   "theorems": [
    "Trixy.C41_schedule",
    "Trixy.C41_visits",
    "Trixy.C41_empty"
   ],
   "note": ""
  },
  {
   "property": "C42",
   "status": "partial",
   "theorems": [
    "Trixy.C42_by_reference",
    "Trixy.C42_by_value",
    "Trixy.C42_by_value_violated"
   ],
   "note": "Holds for functors that refer to their random source; false for functors that hold their state by value (every tensor restarts)."
  },
  {
   "property": "C43",
   "status": "proved",
   "theorems": [
    "Trixy.C43_ownership",
    "Trixy.C43_all_released",
    "Trixy.C43_destroy",
    "Trixy.C43_connect",
    "Trixy.C43_setLoss",
    "Trixy.C43_double_add_violated",
    "Trixy.C43_copy_violated",
    "Trixy.C43_train_copy_violated",
    "Trixy.C43_reconnect_violated",
    "Trixy.C43_conv_connect_violated",
    "Trixy.C43_no_activation_violated",
    "Trixy.C43_training_outlives_network_violated"
   ],
   "note": "discipline stated in Spec/Own.lean; the violated theorems show, for every reached state, what leaving it leads to (double add, copies, reconnecting the current activation) and that Convolutional::connect takes no ownership"
  },
  {
   "property": "C44",
   "status": "proved",
   "theorems": [
    "Trixy.C44_gd",
    "Trixy.C44_sgd",
    "Trixy.C44_gd_sequence"
   ],
   "note": ""
  },
  {
   "property": "C45",
   "status": "proved",
   "theorems": [
    "Trixy.C45_momentum",
    "Trixy.C45_nestorov",
    "Trixy.C45_adagrad",
    "Trixy.C45_rmsprop"
   ],
   "note": "all interleavings, by locality of the keyed state"
  },
  {
   "property": "C46",
   "status": "proved",
   "theorems": [
    "Trixy.C46_momentum",
    "Trixy.C46_nestorov"
   ],
   "note": "closed forms over any commutative ring"
  },
  {
   "property": "C47",
   "status": "proved",
   "theorems": [
    "Trixy.C47_adagrad",
    "Trixy.C47_adagrad_bound",
    "Trixy.C47_rmsprop",
    "Trixy.C47_rmsprop_positive"
   ],
   "note": ""
  },
  {
   "property": "C48",
   "status": "partial",
   "theorems": [
    "Trixy.C48_adam_partial",
    "Trixy.C48_adam_counts_all_calls",
    "Trixy.C48_adam_violated"
   ],
   "note": "single tensor proved; violated by the code when several tensors share the optimizer (negation proved)"
  },
  {
   "property": "C49",
   "status": "partial",
   "theorems": [
    "Trixy.C49_value",
    "Trixy.C49_derivative_partial",
    "Trixy.C49_kinks",
    "Trixy.C49_gelu_violated"
   ],
   "note": "GELU: df is not the derivative (proved for every argument other than 0 near 0); all other classes proved, incl. one-sided derivatives at kinks. Over exact reals."
  },
  {
   "property": "C50",
   "status": "proved",
   "theorems": [
    "Trixy.C50_range_monotone",
    "Trixy.C50_relu_idempotent",
    "Trixy.C50_sigmoid_self"
   ],
   "note": "over exact reals"
  },
  {
   "property": "C51",
   "status": "proved",
   "theorems": [
    "Trixy.C51_stable",
    "Trixy.C51_distribution",
    "Trixy.C51_empty",
    "Trixy.softMaxAct_Is"
   ],
   "note": "over exact reals"
  },
  {
   "property": "C52",
   "status": "partial",
   "theorems": [
    "Trixy.C52_values",
    "Trixy.C52_gradients_partial",
    "Trixy.C52_mae_violated",
    "Trixy.C52_bce_derived_violated",
    "Trixy.C52_cce_violated"
   ],
   "note": "MSE, MSLE, LC and categorical_cross_entropy_derived proved; MAE.df, binary_cross_entropy_derived and CCE.df are not gradients (proved)"
  },
  {
   "property": "C53",
   "status": "partial",
   "theorems": [
    "Trixy.C53_cross_entropy_gradient",
    "Trixy.C53_nll_gradient",
    "Trixy.C53_softmax_nll",
    "Trixy.C53_softmax_cce",
    "Trixy.C53_sigmoid_bce_violated"
   ],
   "note": "SoftMax with NLL or CCE proved for whole networks; Sigmoid with BCE violated (proved)"
  },
  {
   "property": "C54",
   "status": "proved",
   "theorems": [
    "Trixy.C54_nonneg"
   ],
   "note": "over exact reals"
  },
  {
   "property": "C55",
   "status": "proved",
   "theorems": [
    "Trixy.C55_linear_sample",
    "Trixy.C55_linear",
    "Trixy.C55_linear_agree",
    "Trixy.C55_poly_sample",
    "Trixy.C55_poly",
    "Trixy.C55_poly_agree",
    "Trixy.C55_initialize",
    "Trixy.C55_initialize_lvalue",
    "Trixy.C55_from_construction"
   ],
   "note": "any semiring; also shows that initialize() with a named vector reads out of bounds (consequence of C04)"
  },
  {
   "property": "C56",
   "status": "proved",
   "theorems": [
    "Trixy.C56_linear",
    "Trixy.C56_poly",
    "Trixy.C56_exact_linear",
    "Trixy.C56_exact_poly",
    "Trixy.C56_poly_ident",
    "Trixy.C56_not_identified_linear",
    "Trixy.C56_not_identified_poly",
    "Trixy.C56_from_construction"
   ],
   "note": "any ordered field; without full column rank training divides by zero"
  },
  {
   "property": "C57",
   "status": "proved",
   "theorems": [
    "Trixy.C57_normal",
    "Trixy.C57_full",
    "Trixy.C57_global",
    "Trixy.C57_unit_interval",
    "Trixy.C57_empty",
    "Trixy.C57_boundary",
    "Trixy.C57_network"
   ],
   "note": "exact rational results (double rounding not modelled); C57_network instantiates the predictor with the unified network of C37"
  },
  {
   "property": "C58",
   "status": "proved",
   "theorems": [
    "Trixy.C58_tensor",
    "Trixy.C58_tensor_uninit",
    "Trixy.C58_container",
    "Trixy.C58_regression",
    "Trixy.C58_fully_connected",
    "Trixy.C58_convolutional",
    "Trixy.C58_network",
    "Trixy.C58_predictions",
    "Trixy.C58_dense",
    "Trixy.C58_serializer"
   ],
   "note": "relative to Codec.Lawful: the byte encoding of the external SF library (numbers, elements, span, class keys of registered polymorphic pointers) is assumed to read back what it writes; networks of FullyConnected and Convolutional layers in both modes, sizes below 2^64"
  },
  {
   "property": "C59",
   "status": "partial",
   "theorems": [
    "Trixy.C59_violated",
    "Trixy.C59_loaded",
    "Trixy.C59_empty_partial"
   ],
   "note": "The property is false of the code (C59_violated, both modes); only layers without output can be used after loading."
  },
  {
   "property": "C60",
   "status": "proved",
   "theorems": [
    "Trixy.C60_container"
   ],
   "note": "containers of any element type (so also the layer container of a network and the filter container of a convolution) in every reachable state, with every later valid history; tensors, layers and regressions are only read by saving (the model functions do not return a new object)"
  },
  {
   "property": "C61",
   "status": "proved",
   "theorems": [
    "Trixy.C61_integral",
    "Trixy.C61_reaches",
    "Trixy.C61_full_range",
    "Trixy.C61_narrow",
    "Trixy.C61_floating",
    "Trixy.C61_monotone"
   ],
   "note": "integral types of any width and signedness with promotion and overflow; floating over an exact ordered field; also shows the failing boundary cases"
  },
  {
   "property": "C62",
   "status": "proved",
   "theorems": [
    "Trixy.C62_parallel_info",
    "Trixy.C62_remainder"
   ],
   "note": ""
  },
  {
   "property": "C63",
   "status": "partial",
   "theorems": [
    "Trixy.C63_resize_shape_partial",
    "Trixy.C63_resize_shape_violated"
   ],
   "note": "violated by the code for vectors of size other than 1"
  },
  {
   "property": "C64",
   "status": "partial",
   "theorems": [
    "Trixy.C64_resize_partial",
    "Trixy.C64_resize_violated"
   ],
   "note": "lvalue arguments proved; violated by the code for rvalue arguments"
  },
  {
   "property": "C65",
   "status": "partial",
   "theorems": [
    "Trixy.C65_violated",
    "Trixy.C65_network_violated",
    "Trixy.C65_single_row_partial"
   ],
   "note": "violated by the code: out of bounds for every convolution with more than one output channel or row; holds for single-row outputs"
  },
  {
   "property": "C66",
   "status": "partial",
   "theorems": [
    "Trixy.C66_address_reuse_violated",
    "Trixy.C66_address_reuse_same_size_partial"
   ],
   "note": "violated by the code: state is keyed by address; different size gives an out-of-bounds access (proved for Momentum, all sizes), same size inherits stale velocity"
  },
  {
   "property": "C67",
   "status": "proved",
   "theorems": [
    "Trixy.C67_training",
    "Trixy.C67_from_construction",
    "Trixy.C67_library",
    "Trixy.C67_msle_not_total",
    "Trixy.gd_UpdOk",
    "Trixy.sgd_UpdOk",
    "Trixy.mom_UpdOk",
    "Trixy.nes_UpdOk",
    "Trixy.adagrad_UpdOk",
    "Trixy.rmsprop_UpdOk",
    "Trixy.adam_UpdOk",
    "Trixy.C67_adam"
   ],
   "note": "any element type; any mix of the three layer classes that fits (Spec/TrainSafe.lean); every optimizer class meets the hypothesis UpdOk; Adam for decay rates in [0,1) over ordered fields, and for any rates over a floating-point type (total division)"
  },
  {
   "property": "C68",
   "status": "partial",
   "theorems": [
    "Trixy.Losses.C68_violated",
    "Trixy.Losses.C68_data_race_violated",
    "Trixy.Losses.C68_exclusive_partial",
    "Trixy.Losses.C68_one_thread_per_function_partial",
    "Trixy.Losses.C68_local_partial",
    "Trixy.Losses.C68_local_loops"
   ],
   "note": "violated by mean_squared_error and mean_squared_log_error (static local): wrong value in some interleaving for every pair of evaluations with different first errors, and a data race; correct under mutual exclusion, with one thread per function, and for the functions without static variable"
  },
  {
   "property": "C69",
   "status": "proved",
   "theorems": [
    "Trixy.C69_checker",
    "Trixy.C69_checker_one",
    "Trixy.C69_training"
   ],
   "note": ""
  },
  {
   "property": "C70",
   "status": "proved",
   "theorems": [
    "Trixy.C70_forward",
    "Trixy.C70_backward",
    "Trixy.C70_history"
   ],
   "note": "any element type with any 0, + and *"
  },
  {
   "property": "C71",
   "status": "proved",
   "theorems": [
    "Trixy.C71_descent",
    "Trixy.C71_library"
   ],
   "note": "real arithmetic; NotStationary states through HasDerivAt that some partial derivative of the mean loss is not zero"
  },
  {
   "property": "C72",
   "status": "partial",
   "theorems": [
    "Trixy.C72_resize_violated",
    "Trixy.C72_assign_violated",
    "Trixy.C72_harmless_failures_partial",
    "Trixy.C72_constructor_partial"
   ],
   "note": "violated by resize and copy assignment of any object that owns storage, in every reached state; holds for histories in which failures hit constructors or objects without storage"
  },
  {
   "property": "C73",
   "status": "partial",
   "theorems": [
    "Trixy.C73_exceptions_partial",
    "Trixy.C73_assign_alloc_violated",
    "Trixy.C73_assign_elem_violated",
    "Trixy.C73_constructor_leak_violated",
    "Trixy.C73_move_violated"
   ],
   "note": "violated by copy assignment, constructors and reserve with throwing element moves, in every reached state; holds for the other operations"
  },
  {
   "property": "C74",
   "status": "partial",
   "theorems": [
    "Trixy.OptMem.C74_storage_partial",
    "Trixy.OptMem.C74_entry",
    "Trixy.OptMem.C74_copy_violated"
   ],
   "note": "violated by copies of used optimizers in every reached state; holds for histories that copy only unused ones"
  },
  {
   "property": "C75",
   "status": "partial",
   "theorems": [
    "Trixy.C75_locked_partial",
    "Trixy.C75_memory_safe_partial",
    "Trixy.C75_container",
    "Trixy.C75_assign_violated",
    "Trixy.C75_swap_violated"
   ],
   "note": "violated through the references returned by in-place members, in every reached state; holds for histories without such assignments (containers: holds)"
  },
  {
   "property": "C76",
   "status": "partial",
   "theorems": [
    "Trixy.C76_traverse_partial",
    "Trixy.C76_plus_violated"
   ],
   "note": "violated by operator+(n) and operator-(n) in every reached state; everything else holds"
  },
  {
   "property": "C77",
   "status": "proved",
   "theorems": [
    "Trixy.C77_gd",
    "Trixy.C77_momentum",
    "Trixy.C77_nestorov",
    "Trixy.C77_adagrad",
    "Trixy.C77_rmsprop",
    "Trixy.C77_adam"
   ],
   "note": ""
  },
  {
   "property": "C78",
   "status": "proved",
   "theorems": [
    "Trixy.C78_accumulate",
    "Trixy.C78_inner",
    "Trixy.C78_product",
    "Trixy.C78_activation",
    "Trixy.C78_relu",
    "Trixy.C78_layer",
    "Trixy.C78_feedforward",
    "Trixy.C78_backward",
    "Trixy.C78_convolution_backward",
    "Trixy.C78_update",
    "Trixy.C78_stochastic_descent",
    "Trixy.C78_momentum"
   ],
   "note": ""
  },
  {
   "property": "C79",
   "status": "partial",
   "theorems": [
    "Trixy.C79_batch_partial",
    "Trixy.C79_mini_batch_partial",
    "Trixy.C79_stochastic_partial",
    "Trixy.C79_same_objects_partial",
    "Trixy.C79_momentum_violated",
    "Trixy.C79_convolution_violated"
   ],
   "note": "Proved for every optimizer that does not look at the parameter address (GradDescent and StohasticGradDescent are shown to be such), and for every optimizer and network if the objects stay the same (C79_same_objects_partial). Violated for the others: their state is keyed by the address of the parameter array and is not saved, so a resumed Momentum training starts with fresh velocities; C79_momentum_violated gives a network where the results differ. Violated also with GradDescent when there is a convolution, whose carried gradients are not saved (C79_convolution_violated)."
  },
  {
   "property": "C80",
   "status": "proved",
   "theorems": [
    "Trixy.C80_optimizers",
    "Trixy.C80_adam",
    "Trixy.C80_batch",
    "Trixy.C80_mini_batch",
    "Trixy.C80_stochastic"
   ],
   "note": ""
  },
  {
   "property": "C81",
   "status": "partial",
   "theorems": [
    "Trixy.C81_own",
    "Trixy.C81_copy",
    "Trixy.C81_default_violated",
    "Trixy.C81_default_shared",
    "Trixy.C81_default_partial"
   ],
   "note": "Proved for generator classes that keep their state in the object. Violated for DefaultGenerator, the default: it has no state and uses srand/rand, so constructing or seeding any other Random object restarts the stream of all of them (C81_default_violated, for every C library in which two seeds differ in the first number) and objects consume numbers of one another; what holds is that all draws after the last seeding together are the stream of that seed modulo 2^32 (C81_default_partial)."
  },
  {
   "property": "C82",
   "status": "proved",
   "theorems": [
    "Trixy.C82_batch",
    "Trixy.C82_mini_batch",
    "Trixy.C82_whole_batch",
    "Trixy.C82_stack_batch",
    "Trixy.C82_stack_mini_batch",
    "Trixy.C82_linear",
    "Trixy.C82_poly",
    "Trixy.C82_accuracy"
   ],
   "note": "dense networks (C82_batch, C82_mini_batch) and stacks of convolution and dense layers (C82_stack_batch, C82_stack_mini_batch), any optimizer class"
  },
  {
   "property": "C83",
   "status": "proved",
   "theorems": [
    "Trixy.C83_backprop",
    "Trixy.C83_partials",
    "Trixy.C83_library"
   ],
   "note": "Stacks where every layer takes exactly the shape of its predecessor; a convolution of several channels or rows feeding a dense layer is the undefined behaviour of C65, training max pooling is C35."
  },
  {
   "property": "C84",
   "status": "partial",
   "theorems": [
    "Trixy.C84_violated",
    "Trixy.C84_batch",
    "Trixy.C84_mini_batch",
    "Trixy.C84_stochastic",
    "Trixy.C84_heavy_ball",
    "Trixy.C84_first_epoch_partial",
    "Trixy.C84_descent_partial",
    "Trixy.C84_library_partial"
   ],
   "note": "violated by the code: a convolution keeps the scaled gradient of the previous step in its gradient members, so from the second step on it follows a heavy-ball recurrence (proved exactly, for all three training functions); the first step is gradient descent"
  },
  {
   "property": "C85",
   "status": "partial",
   "theorems": [
    "Trixy.C85_row_partial",
    "Trixy.C85_col_partial",
    "Trixy.C85_mat_partial",
    "Trixy.C85_outer_partial",
    "Trixy.C85_transpose_partial",
    "Trixy.C85_inverse_partial",
    "Trixy.C85_row_violated",
    "Trixy.C85_col_violated",
    "Trixy.C85_mat_violated",
    "Trixy.C85_mat_witness",
    "Trixy.C85_transpose_violated",
    "Trixy.C85_transpose_iff",
    "Trixy.C85_inverse_violated"
   ],
   "note": "violated by the code: there is no aliasing check, so in place the vector products give the zero vector, the in-place transpose mirrors the upper triangle (right exactly for symmetric matrices), the matrix product reads entries it already changed, and the in-place inverse gives the identity for every matrix; with a result apart from the operands the operations are right and touch only the result (the _partial theorems)"
  },
  {
   "property": "C86",
   "status": "proved",
   "theorems": [
    "Trixy.C86_build",
    "Trixy.C86_init",
    "Trixy.C86_feedforward",
    "Trixy.C86_batch",
    "Trixy.C86_mini_batch",
    "Trixy.C86_stochastic",
    "Trixy.C86_loss",
    "Trixy.C86_program",
    "Trixy.C86_placement",
    "Trixy.C86_library"
   ],
   "note": "the optimizer is any update that computes, on a parameter and a gradient in memory, what the value model computes; GradDescentOptimizer and StochasticGradDescentOptimizer are shown to (the tables of the other optimizers are C74)"
  },
  {
   "property": "C87",
   "status": "partial",
   "theorems": [
    "Trixy.C87_feedback_partial",
    "Trixy.C87_from_construction",
    "Trixy.C87_reference",
    "Trixy.C87_result_violated",
    "Trixy.C87_target_violated",
    "Trixy.C87_target_zero",
    "Trixy.C87_inference_violated",
    "Trixy.C87_convolution_violated"
   ],
   "note": "violated by the code: the returned reference is overwritten by the next call, and one-layer networks overwrite it while reading it; proved: feeding back is right for two or more layers and for one training dense layer"
  },
  {
   "property": "C88",
   "status": "partial",
   "theorems": [
    "Trixy.C88_conv_partial",
    "Trixy.C88_horizontal_padding_ignored",
    "Trixy.C88_padding_violated",
    "Trixy.C88_filter_violated",
    "Trixy.C88_short_forms",
    "Trixy.C88_pool",
    "Trixy.C88_dense"
   ],
   "note": "violated by the code: only padding.height is used; the documented two-number Filter is one non-square filter. Proved: equal paddings (any history), max-pooling, dense layers on unflattened tensors"
  },
  {
   "property": "C89",
   "status": "partial",
   "theorems": [
    "Trixy.C89_activation",
    "Trixy.C89_relu_violated",
    "Trixy.C89_softmax",
    "Trixy.C89_dense",
    "Trixy.C89_dense_parameters",
    "Trixy.C89_network",
    "Trixy.C89_relu_network_violated",
    "Trixy.C89_convolution",
    "Trixy.C89_pool_violated",
    "Trixy.C89_pool_drops_violated",
    "Trixy.C89_loss",
    "Trixy.C89_mae_derivative_violated",
    "Trixy.C89_optimizers",
    "Trixy.C89_adam",
    "Trixy.C89_argmax_violated",
    "Trixy.C89_full_violated",
    "Trixy.C89_normal_violated",
    "Trixy.C89_global",
    "Trixy.C89_real_activations",
    "Trixy.C89_real_losses",
    "Trixy.C89_real_msle"
   ],
   "note": "violated by ReLU, max-pooling, argmax, Accuracy.full and normal, and the MAE derivative (negations proved). Proved for all other activations, softmax, dense and convolution layers, dense networks without ReLU, all losses, all seven optimizers and Accuracy.global. The functions over a floating-point type coincide with the real models of C49 to C52 on the reals"
  },
  {
   "property": "C90",
   "status": "partial",
   "theorems": [
    "Trixy.C90_grad_descent",
    "Trixy.C90_sto_grad_descent",
    "Trixy.C90_momentum",
    "Trixy.C90_nestorov",
    "Trixy.C90_adagrad",
    "Trixy.C90_rmsprop",
    "Trixy.C90_adam",
    "Trixy.C90_fresh",
    "Trixy.C90_sto_grad_descent_violated"
   ],
   "note": "violated by StoGradDescent, whose decay factor is fixed at construction (its exact trajectory is proved). Proved for the other six classes and all programs"
  },
  {
   "property": "C91",
   "status": "partial",
   "theorems": [
    "Trixy.C91_activations_partial",
    "Trixy.C91_derivatives_partial",
    "Trixy.C91_selu_partial",
    "Trixy.C91_softplus_partial",
    "Trixy.C91_gelu_derivative_partial",
    "Trixy.C91_swish_derivative_partial",
    "Trixy.C91_softmax",
    "Trixy.C91_cce",
    "Trixy.C91_bce_partial",
    "Trixy.C91_softplus_violated",
    "Trixy.C91_gelu_derivative_violated",
    "Trixy.C91_swish_derivative_violated",
    "Trixy.C91_unstable_softmax_violated",
    "Trixy.C91_logcosh_violated",
    "Trixy.C91_bce_violated",
    "Trixy.C91_nll_violated",
    "Trixy.C91_real_derivatives"
   ],
   "note": "violated by SoftPlus, GELU and Swish derivatives, unstable_softmax, LogCosh, NLL, BCE in float (negations proved for every format). Proved: all other activations and derivatives for every finite argument, SoftMax, CCE, BCE when 1e-9 - 1 is not rounded to -1, and explicit safe ranges for the others"
  },
  {
   "property": "C92",
   "status": "partial",
   "theorems": [
    "Trixy.C92_values_partial",
    "Trixy.C92_swap_view_violated"
   ],
   "note": "refinement of the heap-level tensor model by an abstract machine of plain values, for all histories that avoid the defects of C04 to C06 and C63; the exchange of an owner with a view is a double free for every heap (negation proved)"
  },
  {
   "property": "C93",
   "status": "partial",
   "theorems": [
    "Trixy.C93_row",
    "Trixy.C93_col",
    "Trixy.C93_mat",
    "Trixy.C93_outer",
    "Trixy.C93_transpose",
    "Trixy.C93_inverse_partial",
    "Trixy.C93_inverse_violated",
    "Trixy.C93_temporary",
    "Trixy.C93_chain"
   ],
   "note": "violated by inverse for every non-empty matrix whose shape has depth 0 (negation proved for every store); all other functions proved for every store, operands and shapes whose element count fits size_t"
  },
  {
   "property": "C94",
   "status": "partial",
   "theorems": [
    "Trixy.C94_push_partial",
    "Trixy.C94_resize_partial",
    "Trixy.C94_push_violated",
    "Trixy.C94_resize_violated",
    "Trixy.C94_stable",
    "Trixy.C94_reserve"
   ],
   "note": "violated for own elements when the operation reallocates (use after free, proved for every history); with spare capacity or with elements of other containers the operation equals the one with the value, for every history"
  },
  {
   "property": "C95",
   "status": "proved",
   "theorems": [
    "Trixy.C95_tensor",
    "Trixy.C95_regression",
    "Trixy.C95_pooling",
    "Trixy.C95_network",
    "Trixy.C95_container",
    "Trixy.C95_serializer"
   ],
   "note": "assumes of the SF archives that reading a number or an element consumes only what it decodes and reports the end of the stream; the marker UB.oob stands for the exception of SF"
  },
  {
   "property": "C96",
   "status": "proved",
   "theorems": [
    "Trixy.C96_independent",
    "Trixy.C96_feedforward",
    "Trixy.C96_training",
    "Trixy.C96_program",
    "Trixy.C96_library",
    "Trixy.C96_alone",
    "Trixy.C96_shared_race",
    "Trixy.C96_shared_overwrites"
   ],
   "note": "accesses to the cells of tensors interleave (sequentially consistent); scalar members and the optimizer belong to one thread; the optimizers are the two without tables; evaluating a loss value is not among the calls because MSE and MSLE keep a static accumulator (C68)"
  },
  {
   "property": "C97",
   "status": "proved",
   "theorems": [
    "Trixy.C97_history",
    "Trixy.C97_no_leak",
    "Trixy.C97_gone"
   ],
   "note": "storage of tensors; the layer objects themselves and their delete are C31; the optimizers are the two without tables (their tables are C66, C74); data is in memory before the networks are built and is not written by the program"
  },
  {
   "property": "C98",
   "status": "proved",
   "theorems": [
    "Trixy.C98_momentum",
    "Trixy.C98_nestorov",
    "Trixy.C98_adagrad",
    "Trixy.C98_rmsprop",
    "Trixy.C98_adam"
   ],
   "note": "one network per optimizer object, which is not copied (copies are C66) and whose network outlives the last update (reuse of addresses is C74); exact arithmetic in an ordered field, the inverse square root is any function; data is in memory before the network is built"
  },
  {
   "property": "C99",
   "status": "partial",
   "theorems": [
    "Trixy.C99_library_partial",
    "Trixy.C99_adam_violated"
   ],
   "note": "partial: proved for gradient descent, stochastic gradient descent, Momentum, Nestorov, AdaGrad and RMSProp; refuted for Adam; the networks have different parameter addresses (objects that exist at the same time have)"
  }
 ]
}