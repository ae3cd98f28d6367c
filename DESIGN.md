# Formal model of Sigma-Ryden/TrixyNet in Lean 4

Source: `/repo` (header-only C++ library, paths below are relative to
`/repo/include/Trixy/`). The code is not compiled or run; the model is a
hand translation, function by function, each definition citing the lines it
models. Project layout (`/verif/lean/Verif`):

* `Model/*`  – the executable model (functions in the monad `Res = Except UB`;
  undefined behaviour of the C++ is a distinct error outcome, never totalised away);
* `Spec/*`   – small, independent specifications the property theorems refer to;
* `Proof/*`  – helper lemmas;
* `Props/*`  – one or more theorems per property (`C01_…`, `C02_…`), each with an
  `example` that a concrete non-trivial case meets its hypotheses.

## Modelling conventions

* **Undefined behaviour.** Null/freed/out-of-range accesses, reads of
  uninitialised cells used in computations, invalid frees and division by zero
  (integer; and for `inverse`, the field division by a zero pivot) are `Except.error`.
  Copying an indeterminate cell from one buffer to another merely propagates it.
* **Integers.** `std::size_t` is a 64-bit word (`Nat` with explicit reduction
  mod 2^64) where wrap-around matters (`Shape`, convolution geometry and
  index arithmetic, random integers); elsewhere indices are `Nat`.
* **Floating point.** Element types are abstract. Theorems in "fold form" hold
  for every interpretation of `0,+,*,-,/` and hence also for IEEE arithmetic in
  the evaluation order of the code; algebraic corollaries are over commutative
  semirings/fields, analytic ones over the real numbers. Rounding errors are
  treated in C78 by the standard model (relative error `u`, underflow `η`, overflow bound `M`);
  NaN/Inf and float/double promotions are not modelled.
* **Allocation** never fails and nothing throws, except in C72 and C73, which are about that.
* **Templates / CRTP / SFINAE / virtual dispatch** are resolved by hand; code
  that cannot compile when instantiated is recorded below and not modelled.

## Per-property plan and result

| id | property | model and proof | status | theorems |
|---|---|---|---|---|
| C01 | Row-major indexing of tensors and matrices is a bijection | Shape.lean: flat index functions over Nat and over 64-bit words; bijection proved arithmetically; overflow witness with d=2^32,h=2^32,w=1. | proved | `C01_in_bounds`, `C01_injective`, `C01_surjective`, `C01_matrix`, `C01_overflow_witness`, `C01_write`, `C01_write_matrix` |
| C02 | Owning tensors never double-free, leak or touch freed memory | TensorMem.lean: heap of blocks + object variables + inductive Op; invariant (owners point to distinct live blocks at least size long) preserved by every step, lifted by induction on the history. | proved | `C02_memory_safe` |
| C03 | Copy construction of a Tensor is a deep, independent copy | Heap-level model of the copy constructor; theorem on contents, freshness, and frame for later writes. | proved | `C03_copy_ctor_deep`, `set1_sameExcept` |
| C04 | Copy construction of a Vector preserves its contents | Heap-level model of Vector's copy constructor; negation proved for every non-empty vector, plus what the copy really is. | partial | `C04_vector_copy_violated`, `C04_vector_copy_partial` |
| C05 | Copy assignment of Matrix/Tensor transfers all elements | Heap-level copy assignment; exact characterisation by the two sizes (equal: correct; larger destination: UB; smaller: uninitialised tail). | partial | `C05_copy_assign_partial`, `C05_smaller_violated`, `C05_larger_violated` |
| C06 | A resized default-constructed Matrix can be copied | Heap-level default ctor; resize; copy ctor; negation for every non-empty size. | partial | `C06_resized_matrix_copy_violated`, `C06_valued_matrix_copy_partial` |
| C07 | Moves transfer the allocation without copying or leaking | Heap-level move operations; contents / null source / single free. | proved | `C07_move_ctor`, `C07_move_assign` |
| C08 | In-place element-wise arithmetic is exact under aliasing | Heap-level element loops reading and writing through pointers that may be equal; proved with a loop invariant. | proved | `C08_add`, `C08_sub`, `C08_mul`, `C08_add2`, `C08_sub2`, `C08_mul2`, `C08_join`, `C08_join2`, `C08_apply`, `C08_apply2`, `C08_fill`, `C08_fill_generator`, `C08_copy`, `C08_alias_patterns` |
| C09 | Value-returning element-wise members on const tensors are usable | Heap-level const members; proved to hit the null dereference for every non-empty tensor. | partial | `C09_const_members_violated`, `C09_const_members_partial` |
| C10 | Views alias their owner and never own memory | Views as (pointer, shape) without ownership; reads/writes through the same heap; frame on the set of live blocks. | proved | `C10_view_aliases`, `C10_views_never_own`, `C10_view_copies`, `C10_view_size`, `C10_view_range`, `C02_memory_safe` |
| C100 | Layers may be added after the training object was created | Train.add leaves delta alone. Two training objects that differ at most in the contents of delta go in lockstep (Alike) because df overwrites; induction over the program. Negation: df reads at most the prediction and the backward pass of the last layer reads at least its outputs, so delta would have to have both sizes. | partial | `C100_same_shape_partial`, `C100_losses`, `C100_other_size_violated` |
| C101 | Hidden units that are copies of each other stay copies, bit for bit | Relation on the cells of every buffer of every layer; forward, backward, accumulate and update of each layer kind preserve it (foldSum_same for the sums in their order), every optimizer update maps connected equal cells to equal cells; induction over the calls. | proved | `C101_copies`, `C101_twins`, `C101_uninitialised`, `C101_constant`, `C101_library`, `C101_library_floats` |
| C102 | The activation of the last layer does not change the predicted class | Strict monotonicity of each activation (piecewise at 0), for softmax by its common positive denominator; the first maximum depends only on the order; then C12, C37, C57. The three others: explicit vectors (-10, -1). | proved | `C102_argmax`, `C102_network`, `C102_accuracy`, `C102_others` |
| C103 | Repeating the data and multiplying the loss have the effect they have on paper | Two training objects with the same parameters run in lockstep when their averaged gradients differ by a constant that the optimizer cannot tell from a rate (Proof/Rescale); sums of gradients are additive in the data and linear in the loss derivative; regressions by uniqueness of the least-squares solution; fractions by counting fibres. | proved | `C103_batch`, `C103_mini_batch`, `C103_loss_gd`, `C103_loss_sgd`, `C103_loss_momentum`, `C103_loss_nestorov`, `C103_linear`, `C103_poly`, `C103_scores` |
| C104 | Training moves nothing that has no gradient | Invariant of training: addresses and parameters are in a situation Q kept by updates that leave the zero gradient addresses alone and in which the gradients of these addresses vanish; induction over the trace of each training method. | proved | `C104_fit`, `C104_library`, `C104_zero`, `C104_constant`, `C104_gd`, `C104_momentum`, `C104_nestorov`, `C104_adagrad`, `C104_rmsprop`, `C104_adam` |
| C105 | The order of the units of a network is immaterial | Simulation between two trainings: states related by a renaming of every array (biases, weights, gradients, tables); every layer pass and optimizer loop preserves it because sums over reordered indices agree; induction over the trace of each training method. | proved | `C105_predict`, `C105_hidden`, `C105_hidden_training`, `C105_gd`, `C105_sgd`, `C105_momentum`, `C105_nestorov`, `C105_adagrad`, `C105_rmsprop`, `C105_adam`, `C105_library` |
| C106 | Convolution layers act locally, linearly and the same everywhere | From the exact description of forward and backward (C31, C32): comparison of zero-padded reads at related positions, reordering of finite sums. | proved | `C106_shift`, `C106_local`, `C106_linear`, `C106_padding`, `C106_rename`, `C106_pointwise`, `C106_dense` |
| C107 | Max pooling commutes with monotone functions, composes, and depends on window contents only | From C34: window maxima are unique, and the windows of the composed layers are unions of windows. | proved | `C107_monotone`, `C107_library`, `C107_compose`, `C107_rearrange` |
| C108 | Where the parameters are in memory does not matter | Simulation: two runs related by a one-to-one relation of addresses; every layer operation commutes with changing addresses, the optimizer by AddressFree (C80_optimizers); induction over loops, networks and call sequences; both directions by flipping the relation. | proved | `C108_history`, `C108_loss`, `C108_shared`, `C108_library` |
| C109 | Memory demand of training | Every element operation keeps the allocation counter, table access adds one array per new entry; the relation of C98 is strengthened by counter = start + number of entries; a second relation confines the entries to the addresses of the network parameters, whose number is computed from the layers. | partial | `C109_gd`, `C109_sgd`, `C109_momentum`, `C109_nestorov`, `C109_adagrad`, `C109_rmsprop`, `C109_adam`, `C109_enough`, `C109_terminates_violated` |
| C11 | reshape with an equal element count keeps the row-major contents | reshape on the object record; contents via the flat index. | proved | `C11_reshape`, `C11_reshape_matrix` |
| C110 | Regression does not depend on units, origin, multiplicity or presentation of the data | From C56 (unique best fit, normal equations): minimisers are transported by the translations of the weights; superposition from linearity of the normal equations; interpolation from the Lagrange polynomial. | proved | `C110_superpose_linear`, `C110_superpose_poly`, `C110_units_linear`, `C110_units_poly`, `C110_repeat_linear`, `C110_repeat_poly`, `C110_more_features`, `C110_higher_degree`, `C110_interpolation`, `C110_mean_linear`, `C110_mean_poly`, `C110_poly_is_linear` |
| C111 | Changes of the parameters that change no prediction | feedforward of a library network is the textbook composition; a lemma for two neighbouring layers of which the first gives s*y+t and the second takes it back; algebra of the activation functions. | proved | `C111_rescale`, `C111_sigmoid_flip`, `C111_tanh_sigmoid`, `C111_merge`, `C111_softmax_shift`, `C111_two_classes` |
| C112 | Small changes of the input or the parameters make small changes of the predictions | Slope bounds of every activation function by the mean value theorem or case analysis at kinks; softmax by differentiating along the segment; induction over the layers. | proved | `C112_lipschitz`, `C112_margin`, `C112_stable`, `C112_parameters` |
| C113 | Where gradient descent stops: stationary points, and only those | The descent step is a continuous function of the parameters (induction over layers and samples), so the limit is a fixed point; a fixed point has zero partial derivatives by C39 and C38. | proved | `C113_limit`, `C113_stops`, `C113_rest` |
| C114 | Training a network with any optimizer class is the published rule applied to every parameter | An invariant relates the tables of the optimizer object to a memory function per address; one update of a layer applies the rule to biases then weights and touches no other address; induction over layers, samples and steps. | proved | `C114_gd`, `C114_sgd`, `C114_momentum`, `C114_nestorov`, `C114_adagrad`, `C114_rmsprop`, `C114_adam`, `C114_batch`, `C114_mini_batch`, `C114_stochastic`, `C114_library` |
| C115 | Whatever the optimizer, training can only settle where the loss is stationary | C114 reduces training to scalar recurrences; for each rule a convergent sequence of numbers with convergent gradients has gradient limit zero (velocity tends to zero; moving averages converge to their input; AdaGrad by divergence of the harmonic series); gradients converge by continuity (C113). | proved | `C115_momentum`, `C115_nestorov`, `C115_adagrad`, `C115_rmsprop`, `C115_adam`, `C115_sgd` |
| C116 | Linear models trained by gradient descent reach the optimum | The layer programs compute gradient steps (FC specs). Each loss after its activation is convex in the weighted sums with second derivative at most 1 (log-sum-exp between its tangent and tangent plus half the square), giving the standard one-step inequality; sum it for regret and rate; a separating model scaled up has arbitrarily small loss; the normal equations identify the regression limit. | proved | `C116_regret`, `C116_best`, `C116_learns`, `C116_regression`, `C116_object` |
| C117 | Reported losses bound reported error rates | C57 and C69 say what is reported; then counting: monotonicity of filters and the Markov inequality; a probability above one half is the unique maximum. | proved | `C117_range`, `C117_full_global`, `C117_classes`, `C117_mse`, `C117_mae`, `C117_nll`, `C117_cce`, `C117_network`, `C117_learns` |
| C118 | Training a classifier follows the gradient of its loss and settles only where it vanishes | The gradients of the stack with the loss derivative p - t are those of the stack whose last activation is the identity with the loss composed with softmax (C53); then C114 and the limit argument of C115. | proved | `C118_rule`, `C118_gd`, `C118_sgd`, `C118_momentum`, `C118_nestorov`, `C118_adagrad`, `C118_rmsprop`, `C118_adam`, `C118_stops`, `C118_rest`, `C118_descent`, `C118_reported` |
| C119 | With growing precision, training in floating point converges to training in exact arithmetic | Convergence of every operation (continuity, exact comparisons away from ties), lifted through activations, affine maps, softmax, backward pass, gradient sums and updates by induction over layers, samples and steps; the runs are those of C39, C40, C41. | proved | `C119_batch`, `C119_mini_batch`, `C119_stochastic`, `C119_class`, `C119_real_losses`, `C119_real_derivatives` |
| C12 | argmax/argmin return the first extreme index | Tool.lean: search loop; first-extreme theorem for any strict weak order. | proved | `C12_argmax`, `C12_argmin`, `C12_max_min`, `C12_unique`, `C12_empty` |
| C120 | Weight decay forgets the start, finds the regularised optimum and limits the influence of a sample | co-coercivity of the gradients of convex smooth losses makes the step a contraction; the limit is a fixed point, hence the minimum; a changed sample adds a bounded term per step to the contraction; the bound (4) by induction | proved | `C120_forgets`, `C120_optimum`, `C120_influence`, `C120_bounded` |
| C121 | Online learning: bounded regret and few wrong predictions on any stream | Client program over the model of the layer; per-step inequality from convexity and the self-bounding gradient of a smooth non-negative loss; telescoping; scaling of the separating model by log N / gamma. | proved | `C121_regret`, `C121_mistakes`, `C121_margin`, `C121_rate` |
| C122 | Momentum and Nestorov reach the optimum of linear models | Client program over the model of the layer and of the optimizer tables; heavy ball and Nesterov runs of convex smooth functions: shifted sequence telescopes, energy gives the last iterate. | proved | `C122_momentum`, `C122_nestorov`, `C122_energy`, `C122_limit`, `C122_learns` |
| C123 | AdaGrad reaches the optimum of linear models with every learning rate | Client program over the model of the layer and of the optimizer tables; potential f + sum (lr sqrt(e+S) - c log(e+S)) never increases, so the squared gradients are summable; distances grow at most like sqrt t; the harmonic series gives the limit. | proved | `C123_limit`, `C123_steps`, `C123_learns` |
| C124 | RMSProp with a constant learning rate reaches a band around the optimum and never settles in it | The distance is multiplied by 1 - lr / sqrt(1e-9 + S) in each step; near the optimum this factor is below -1. Exact hits are zeros of functions analytic in the initial value, hence countable. | proved | `C124_band`, `C124_restless`, `C124_loss` |
| C125 | With every optimizer, training moves the parameters of convolution and dense stacks by the optimizer's rule | Extend the rule semantics of C114 with what an update leaves in the gradient array; abstract state per layer = parameters, carried gradients, optimizer memory per parameter; invariant through the schedules of C39-C41; closed form by induction; violation from injectivity of the step in the gradient. | partial | `C125_gd`, `C125_sgd`, `C125_momentum`, `C125_nestorov`, `C125_adagrad`, `C125_rmsprop`, `C125_adam`, `C125_batch`, `C125_mini_batch`, `C125_stochastic`, `C125_first_partial`, `C125_dense_partial`, `C125_pile`, `C125_violated`, `tells_momentum`, `tells_nestorov`, `tells_adagrad`, `tells_rmsprop` |
| C126 | What networks can represent, and what they cannot | Networks are described by LibLayer lists; Net.IsLib.out gives the function feedforward computes. Samples: a direction that separates the points (roots of finitely many polynomials are avoided), kinks between the projections, triangular solve by induction on the largest point. Continuous functions: Stone-Weierstrass for the algebra spanned by exponentials of linear forms, each exponential by hinges on an interval (uniform continuity), hidden layers put side by side. Limits: induction over the layers. | proved | `C126_exists`, `C126_memorises`, `C126_no_loss`, `C126_classifies`, `C126_approximates`, `C126_identity`, `C126_no_xor`, `C126_xor` |
| C127 | Where training a linear model ends: the optimal parameters nearest to the initial ones, or nowhere | The client programs and the parameter recursion of C116. Distances to optimal parameters never grow; the losses converge to the minimum (C116); a convergent subsequence gives an optimal limit, hence the whole run converges. Convex losses are flat between two optimal parameters, so that all gradients are perpendicular to the differences, which gives Pythagoras. Existence: continuous coercive function on the range of a linear map of finite dimension. Divergence: bounded parameters have losses bounded away from 0 while C116 drives them to 0. | proved | `C127_unseen`, `C127_dead_input`, `C127_nearest`, `C127_regression`, `C127_distributions`, `C127_smallest`, `C127_diverges` |
| C128 | Which learning rates are safe for a linear model, and balance of the trained predictions | The parameter recursion of C116 and the second order bound of the losses give the decrease per step; losses are bounded below, so the squared steps are summable and the gradients vanish. One sample: induction over the steps, geometric sequences. | proved | `C128_descends`, `C128_balance`, `C128_mean`, `C128_single`, `C128_sharp` |
| C129 | Mini-batches in any order: exactly solvable problems are solved, and the total loss of a stream is bounded | Co-coercivity of the gradients of convex smooth losses: a step on a batch solved by R brings the parameters nearer to R by 2 lr times the excess loss, and is itself no longer than that. Excess losses and steps are summable; a limit point of the parameters fits every sample because each comes again within K ever shorter steps; monotone distances make the whole run converge; gradients are perpendicular to differences of solutions. | proved | `C129_distance`, `C129_total`, `C129_converges` |
| C13 | accumulate, mean and standard deviation match their definitions | Tool.lean: accumulate/mean/std over the reals; closed forms with Finset sums. | proved | `C13_accumulate`, `C13_mean`, `C13_std`, `C13_mean_between`, `C13_std_zero_iff`, `C13_mean_empty` |
| C130 | Mini-batches in a fixed cycle: linear regression forgets its start and settles in a cycle, not at the optimum | Differences of two runs are runs with targets 0, which 0 fits exactly: C129 applies and gives their limit, invisible on the samples. A cycle exists: the epoch is an affine map of the span of the inputs, its linear part shortens every vector that some sample sees, so identity minus it is injective, hence onto. Telescoping the steps over one cycle cancels the gradients. By compactness of the unit sphere the epoch shortens the span by a factor q < 1, and the difference of a run and its cycle lies in the (closed) span. Two samples: closed form. | proved | `C130_forgets`, `C130_cycle`, `C130_rate`, `C130_off` |
| C131 | Mini-batch training ends within a factor of the best loss, and the factor goes to 1 with the learning rate | A loss that cannot be negative bounds its own squared gradient (C121), so a step costs at most the fraction c of what it gains; the parameters met during a pass are therefore near those at its start, and smoothness transfers the losses. Telescoping over the passes; limits by continuity. | proved | `C131_passes`, `C131_some`, `C131_cycle` |
| C132 | With falling learning rates, shuffled mini-batch training reaches the optimum | The pass bound of C131 gives, for every optimal point, distance^2 after an epoch + rate * excess loss <= distance^2 before + const * rate^2. The excess therefore comes near 0 infinitely often; a subsequence converges to an optimal point, and the distance to that point converges. | proved | `C132_optimum`, `C132_infimum`, `C132_some`, `C132_object` |
| C14 | Matrix arg-extreme search along an axis | Tool.lean: the two axis searches on the checked buffer model; X proved, Y proved to read an uninitialised index. | partial | `C14_axisX`, `C14_axisY_violated` |
| C15 | concat is list concatenation | Tool.lean: concat over checked buffers, any number of ranges. | proved | `C15_concat` |
| C16 | multinomial samples by inverse CDF and never returns an impossible outcome | Tool.lean: multinomial loop over an ordered field. | proved | `C16_inverse_cdf`, `C16_no_impossible_outcome` |
| C17 | block_loop visits exactly the block | Tool.lean/Linear: the strided pointer loop as a step machine with pointer arithmetic; exact visited list for all w, W. | proved | `C17_iff`, `C17_exact`, `C17_full_width_visits_nothing`, `C17_single_column_skips_last` |
| C18 | Vector-matrix and matrix-vector products | Linear.lean: both loops over checked buffers; fold-form theorem for arbitrary arithmetic, Finset.sum corollary. | proved | `C18_row`, `C18_col`, `C18_algebra`, `C18_inner` |
| C19 | Matrix product | Linear.lean: triple loop over checked buffers. | proved | `C19_accumulates`, `C19_product`, `C19_accumulates_sum` |
| C20 | Outer product and transpose | Linear.lean: loops, plus algebraic corollaries. | proved | `C20_tensordot`, `C20_transpose`, `C20_transpose_twice`, `C20_transpose_product` |
| C21 | inverse computes the inverse | Linear.lean: the Gauss-Jordan loop nest with pivoting over checked buffers and checked division; invariant relates (matrix,result) to the input by left multiplication. | proved | `C21_invertible`, `C21_singular`, `C21_value` |
| C22 | Container refines a list | Container.lean: heap-level container; refinement to List for every history. | proved | `C22_refines_list` |
| C23 | A copy-constructed Container is safe to extend | Container.lean: copy constructor; violated with witness, exact iff. | partial | `C23_copy_ctor_violated`, `C23_copy_ctor_partial` |
| C24 | Container element lifetimes balance | Container.lean: cells are raw/live; construct/destroy checked; balance theorem. | proved | `C24_lifetimes` |
| C25 | emplace_back is amortised O(1) | Container.lean: move counter and potential argument. | proved | `C25_amortised` |
| C26 | FullyConnected.forward is activation(x.W + b) and history-free | FC.lean: forward over the buffer-level Linear model. | proved | `C26_forward`, `C26_history`, `C26_history_free`, `C26_raw` |
| C27 | FullyConnected.backward computes the vector-Jacobian product | FC.lean + real analysis (HasDerivAt). | proved | `C27_backward`, `C27_curve`, `C27_partials` |
| C28 | FullyConnected gradient accumulation | FC.lean: induction over rounds. | proved | `C28_update_hands`, `C28_accumulated`, `C28_latest`, `C28_new_layer` |
| C29 | stochastic training uses the current gradient | FC.lean: witness history plus exact characterisation by the accumulated flag. | partial | `C29_violated`, `C29_clean_partial`, `C29_layer_violated` |
| C30 | Convolution output geometry | Conv.lean: geometry on 64-bit words. | proved | `C30_geometry` |
| C31 | Convolution forward is the zero-padded strided cross-correlation | Conv.lean: the 6-fold loop with wrapped indices over checked buffers. | proved | `C31_forward`, `C31_history` |
| C32 | Convolution backward is the adjoint of forward | Conv.lean: backward loops; adjoint identity by exchanging finite sums. | proved | `C32_backward`, `C32_adjoint`, `C32_curve`, `C32_partials` |
| C33 | Convolution parameter updates use only the gradients since the last update | Conv.lean: gradient state machine; closed form; negation witness. | partial | `C33_actual`, `C33_first_update_partial`, `C33_violated` |
| C34 | Inference max-pooling returns the window maxima | Pool.lean: Raw forward loop. | proved | `C34_forward`, `C34_history`, `C34_nondividing` |
| C35 | Training max-pooling forward equals inference max-pooling forward | Pool.lean: Train forward; negation: value() independent of the input. | partial | `C35_violated`, `C35_fresh_violated`, `C35_defined_partial` |
| C36 | Max-pooling backward routes each delta to the first maximum | Pool.lean: mask and backward loops. | proved | `C36_backward` |
| C37 | feedforward is the composition of the layers and is history-free | Net.lean: layer interface as a state machine with a history-free contract; induction over the layer list. | proved | `C37_layer`, `C37_feedforward`, `C37_history`, `C37_empty`, `rawPool_computes` |
| C38 | backprop computes the gradient of the loss for the whole network | Net.lean: induction over the layers with HasDerivAt; single-layer UB. | proved | `C38_backprop`, `C38_partials`, `C38_single_layer`, `net_partials`, `C38_library` |
| C39 | batch training performs averaged gradient descent | Train.lean: epochs as folds over the FC network model. | proved | `C39_batch`, `C39_descent`, `C39_schedule`, `C39_visits`, `avgStep_descent` |
| C40 | mini_batch visits floor(n/m) full mini-batches and drops the tail | Train.lean: loop bookkeeping as an event trace. | proved | `C40_schedule`, `C40_visits`, `C40_zero`, `C40_gd` |
| C41 | stochastic only picks valid samples | Train.lean: trace of the stochastic loop. | proved | `C41_schedule`, `C41_visits`, `C41_empty` |
| C42 | init draws consecutive generator values for all parameters | Net.lean: generator threaded by value vs by reference. | partial | `C42_by_reference`, `C42_by_value`, `C42_by_value_violated` |
| C43 | The network owns and deletes each added layer exactly once | Own.lean: heap of objects with owner; invariant over histories. | proved | `C43_ownership`, `C43_all_released`, `C43_destroy`, `C43_connect`, `C43_setLoss`, `C43_double_add_violated`, `C43_copy_violated`, `C43_train_copy_violated`, `C43_reconnect_violated`, `C43_conv_connect_violated`, `C43_no_activation_violated`, `C43_training_outlives_network_violated` |
| C44 | GradDescent and StoGradDescent step | Optim.lean. | proved | `C44_gd`, `C44_sgd`, `C44_gd_sequence` |
| C45 | Per-parameter optimizer state is isolated | Optim.lean: state keyed by address; projection theorem. | proved | `C45_momentum`, `C45_nestorov`, `C45_adagrad`, `C45_rmsprop` |
| C46 | Momentum and Nestorov follow their recurrences | Optim.lean: induction over gradients. | proved | `C46_momentum`, `C46_nestorov` |
| C47 | AdaGrad and RMSProp scale by accumulated squares and never divide by zero | Optim.lean: induction over gradients; real sqrt. | proved | `C47_adagrad`, `C47_adagrad_bound`, `C47_rmsprop`, `C47_rmsprop_positive` |
| C48 | Adam bias correction uses the number of steps of the parameter | Optim.lean: global counter; witness + single-parameter theorem. | partial | `C48_adam_partial`, `C48_adam_counts_all_calls`, `C48_adam_violated` |
| C49 | Activation derivatives are the derivatives | Scalar.lean/Act.lean over the reals; HasDerivAt. | partial | `C49_value`, `C49_derivative_partial`, `C49_kinks`, `C49_gelu_violated` |
| C50 | Activation ranges and monotonicity | Scalar.lean/Act.lean over the reals. | proved | `C50_range_monotone`, `C50_relu_idempotent`, `C50_sigmoid_self` |
| C51 | softmax is a stable probability distribution | Softmax.lean: loops over checked buffers and closed form. | proved | `C51_stable`, `C51_distribution`, `C51_empty`, `softMaxAct_Is` |
| C52 | Loss derivatives are the gradients | Loss.lean over the reals. | partial | `C52_values`, `C52_gradients_partial`, `C52_mae_violated`, `C52_bce_derived_violated`, `C52_cce_violated` |
| C53 | Fused softmax/sigmoid loss gradients | Loss.lean + Scalar.lean/Act.lean. | partial | `C53_cross_entropy_gradient`, `C53_nll_gradient`, `C53_softmax_nll`, `C53_softmax_cce`, `C53_sigmoid_bce_violated` |
| C54 | Losses are non-negative and vanish on perfect predictions | Loss.lean. | proved | `C54_nonneg` |
| C55 | Regression prediction | Regression.lean on the Linear model. | proved | `C55_linear_sample`, `C55_linear`, `C55_linear_agree`, `C55_poly_sample`, `C55_poly`, `C55_poly_agree`, `C55_initialize`, `C55_initialize_lvalue`, `C55_from_construction` |
| C56 | Regression training is least squares | Regression.lean using the inverse theorem and the normal equations. | proved | `C56_linear`, `C56_poly`, `C56_exact_linear`, `C56_exact_poly`, `C56_poly_ident`, `C56_not_identified_linear`, `C56_not_identified_poly`, `C56_from_construction` |
| C57 | Accuracy measures | Checker.lean: counting loops. | proved | `C57_normal`, `C57_full`, `C57_global`, `C57_unit_interval`, `C57_empty`, `C57_boundary`, `C57_network` |
| C58 | Serialization round-trip | Serial.lean: archives as token streams with an abstract primitive codec; round-trip for every object and every remaining stream. | proved | `C58_tensor`, `C58_tensor_uninit`, `C58_container`, `C58_regression`, `C58_fully_connected`, `C58_convolutional`, `C58_network`, `C58_predictions`, `C58_dense`, `C58_serializer` |
| C59 | A loaded MaxPooling layer can be used | Serial.lean + Pool.lean. | partial | `C59_violated`, `C59_loaded`, `C59_empty_partial` |
| C60 | Saving does not change observable contents | Serial.lean + Container.lean. | proved | `C60_container` |
| C61 | Random numbers stay in the requested interval | Random.lean. | proved | `C61_integral`, `C61_reaches`, `C61_full_range`, `C61_narrow`, `C61_floating`, `C61_monotone` |
| C62 | Work splitting for parallel loops | Random.lean. | proved | `C62_parallel_info`, `C62_remainder` |
| C63 | resize(other.shape()) gives the other's size | TensorMem.lean: resize(shape) of Vector/Matrix/Tensor on the object record; negation for every vector size other than 1. | partial | `C63_resize_shape_partial`, `C63_resize_shape_violated` |
| C64 | resize(n, value) fills with value | Container.lean: resize for lvalue and rvalue arguments over raw/live cells; the rvalue overload moves from its argument repeatedly (negation). | partial | `C64_resize_partial`, `C64_resize_violated` |
| C65 | Convolutional layers can precede FullyConnected layers in training | Conv.lean + FC.lean: Convolutional::backward indexing into the (1,1,n) delta of a dense layer; out-of-bounds for every multi-row/-channel output. | partial | `C65_violated`, `C65_network_violated`, `C65_single_row_partial` |
| C66 | An optimizer can be used for tensors allocated after others were destroyed | Optim.lean: state table keyed by the parameter's address; two tensors that live at the same address one after the other. | partial | `C66_address_reuse_violated`, `C66_address_reuse_same_size_partial` |
| C67 | Training never leaves defined behaviour | TrainSafe.lean (Spec, Proof, Props): invariant `Train.Safe` on a training object whose layers are sound instances of fixed layer kinds; preserved by every call; induction on the call sequence; instances for every optimizer, activation and loss of the library. | proved | `C67_training`, `C67_from_construction`, `C67_library`, `C67_msle_not_total`, `gd_UpdOk`, `sgd_UpdOk`, `mom_UpdOk`, `nes_UpdOk`, `adagrad_UpdOk`, `rmsprop_UpdOk`, `adam_UpdOk`, `C67_adam` |
| C68 | Losses can be evaluated concurrently | LossRace.lean: interleaving semantics with the `static` variables as shared memory; wrong-value interleaving constructed for every pair of evaluations; invariant proof for mutually exclusive schedules. | partial | `Losses.C68_violated`, `Losses.C68_data_race_violated`, `Losses.C68_exclusive_partial`, `Losses.C68_one_thread_per_function_partial`, `Losses.C68_local_partial`, `Losses.C68_local_loops` |
| C69 | Mean loss over a data set | Checker.lean, Train.lean: the two mean-loss loops; parameters unchanged. | proved | `C69_checker`, `C69_checker_one`, `C69_training` |
| C70 | Convolution results are reproducible for any arithmetic | ConvExact.lean (Spec, Proof, Props): fold-form characterisation of the convolution loops for arbitrary arithmetic. | proved | `C70_forward`, `C70_backward`, `C70_history` |
| C71 | A small enough step of gradient descent improves the network | Descent.lean: the derivative at 0 of the mean loss as a function of the learning rate is minus the squared gradient length (from C38/C39); then the loss loop is shown to report that mean. | proved | `C71_descent`, `C71_library` |
| C72 | A failed allocation leaves tensors destructible | AllocFail.lean: for each operation the state at the throw; the invariant of C01 over histories with throws; Gone/Doomed invariants for the negative part. | partial | `C72_resize_violated`, `C72_assign_violated`, `C72_harmless_failures_partial`, `C72_constructor_partial` |
| C73 | Exceptions leave a Container usable | ContThrow.lean: for each operation the store at the throw (allocation or k-th element); refinement to lists as for C22. | partial | `C73_exceptions_partial`, `C73_assign_alloc_violated`, `C73_assign_elem_violated`, `C73_constructor_leak_violated`, `C73_move_violated` |
| C74 | Optimizers own their state arrays | OptMem.lean: tables of owned arrays over the free store; ownership invariant over histories; double free derived from two owners. | partial | `OptMem.C74_storage_partial`, `OptMem.C74_entry`, `OptMem.C74_copy_violated` |
| C75 | Lockers fix size and storage | Locker.lean: the tensor world of C02 with all element-wise members and the assignments possible through returned references; frame theorem over histories. | partial | `C75_locked_partial`, `C75_memory_safe_partial`, `C75_container`, `C75_assign_violated`, `C75_swap_violated` |
| C76 | Container iterators | Iter.lean: iterators as pointers with checked arithmetic over the container world of C22. | partial | `C76_traverse_partial`, `C76_plus_violated` |
| C77 | Bounded optimizer steps | Invariants of the state tables over arbitrary interleaved histories (velocity bound; non-negative accumulators; m^2 against v for Adam). | proved | `C77_gd`, `C77_momentum`, `C77_nestorov`, `C77_adagrad`, `C77_rmsprop`, `C77_adam` |
| C78 | Rounding error bounds | Rounding.lean (Spec, Proof, Props): compositional invariant (computed value, exact value, magnitude, inflated magnitude, number of roundings) carried through the fold forms of C13, C18, C26, C27, C70 (RoundingConv.lean: the backward pass over the spread delta) and the pooling scan; a concrete binary floating-point format with p bits satisfies the model. | proved | `C78_accumulate`, `C78_inner`, `C78_product`, `C78_activation`, `C78_relu`, `C78_layer`, `C78_feedforward`, `C78_backward`, `C78_convolution_backward`, `C78_update`, `C78_stochastic_descent`, `C78_momentum` |
| C79 | Stopping, saving and resuming a training | Checkpoint.lean: a simulation between two training objects whose layers agree on parameters but not on addresses, caches and accumulators (Proof/Twin.lean), composed with the serialisation round trip of C58. | partial | `C79_batch_partial`, `C79_mini_batch_partial`, `C79_stochastic_partial`, `C79_same_objects_partial`, `C79_momentum_violated`, `C79_convolution_violated` |
| C80 | Training is reproducible | Reproduce.lean: a one-to-one renaming of addresses relates the optimizer tables; each optimizer commutes with it, and the training simulation of C79 carries the relation through. | proved | `C80_optimizers`, `C80_adam`, `C80_batch`, `C80_mini_batch`, `C80_stochastic` |
| C81 | A seed decides the random numbers | RandObj.lean: small-step model of programs over Random objects with the hidden C library state explicit; induction over the program. | partial | `C81_own`, `C81_copy`, `C81_default_violated`, `C81_default_shared`, `C81_default_partial` |
| C82 | Order of the samples | Order.lean: the summed gradients of a permuted window are equal, the training simulation of C79 with two data sets; StackOrder.lean: the same for stacks with convolutions (Proof/StackTwin.lean: two trainings fed the same sums stay equal, carried gradients included); for regressions uniqueness of the least squares solution (C56); for accuracies C57. | proved | `C82_batch`, `C82_mini_batch`, `C82_whole_batch`, `C82_stack_batch`, `C82_stack_mini_batch`, `C82_linear`, `C82_poly`, `C82_accuracy` |
| C83 | Back-propagation through stacks of convolution and dense layers | Stack.lean: abstract stages (dense, convolution) with output, input delta and gradient functions; feedforward and backprop refine them by induction over the stack; chain rule along the stack over the reals; library classes plugged in. | proved | `C83_backprop`, `C83_partials`, `C83_library` |
| C84 | Gradient descent on stacks of convolution and dense layers | StackTrain.lean: the three training loops on the abstract state of C83 are iterations of one explicit step (carryStep); its first application from zero gradient members is gradient descent on the mean loss, later ones are a heavy-ball recurrence; two epochs differ from two descent steps whenever the gradient of some convolution parameter is nonzero. | partial | `C84_violated`, `C84_batch`, `C84_mini_batch`, `C84_stochastic`, `C84_heavy_ball`, `C84_first_epoch_partial`, `C84_descent_partial`, `C84_library_partial` |
| C85 | Linear operations on operands that share storage | HeapLinear.lean transcribes the operations with every element access a load or store in the heap; Proof/HeapSim.lean shows each is simulated by the buffer-level operation when the areas are apart; the in-place cases are proved by loop invariants on the shared area. | partial | `C85_row_partial`, `C85_col_partial`, `C85_mat_partial`, `C85_outer_partial`, `C85_transpose_partial`, `C85_inverse_partial`, `C85_row_violated`, `C85_col_violated`, `C85_mat_violated`, `C85_mat_witness`, `C85_transpose_violated`, `C85_transpose_iff`, `C85_inverse_violated` |
| C86 | Networks and training in memory compute what they compute on values | HeapNet.lean and HeapBuild.lean transcribe the layers, the network, the training object and their constructors with every element access a load or store in the heap; a forward simulation shows each member function follows the value model when all members are apart, the constructors establish separation, and every call preserves it; C67 supplies definedness of the value program. | proved | `C86_build`, `C86_init`, `C86_feedforward`, `C86_batch`, `C86_mini_batch`, `C86_stochastic`, `C86_loss`, `C86_program`, `C86_placement`, `C86_library` |
| C87 | The tensor feedforward returns can be kept and used like any other | On the heap model of C86: feeding back follows the value model because the scratch tensors of the first layer are apart from the output; the violations are proved for all networks (kept reference, target) and layers (inference dense), the convolution by an exact evaluation. | partial | `C87_feedback_partial`, `C87_from_construction`, `C87_reference`, `C87_result_violated`, `C87_target_violated`, `C87_target_zero`, `C87_inference_violated`, `C87_convolution_violated` |
| C88 | Layers built from named arguments have the geometry the arguments name | Volume.lean models the named argument types and the delegating constructors; the positional constructors are those of C30, C34 and C26, whose histories give the function computed; the counterexamples hold for all geometries. | partial | `C88_conv_partial`, `C88_horizontal_padding_ignored`, `C88_padding_violated`, `C88_filter_violated`, `C88_short_forms`, `C88_pool`, `C88_dense` |
| C89 | A value that is not a number is never silently turned into a number | Flt.lean restates the scalar functions and losses over any type with the operations of cmath; Spec/NaN.lean states what IEEE 754 guarantees about NaN and gives a model of these assumptions; the generic layer theorems (C26, C70, C34, C45) then give the propagation. | partial | `C89_activation`, `C89_relu_violated`, `C89_softmax`, `C89_dense`, `C89_dense_parameters`, `C89_network`, `C89_relu_network_violated`, `C89_convolution`, `C89_pool_violated`, `C89_pool_drops_violated`, `C89_loss`, `C89_mae_derivative_violated`, `C89_optimizers`, `C89_adam`, `C89_argmax_violated`, `C89_full_violated`, `C89_normal_violated`, `C89_global`, `C89_real_activations`, `C89_real_losses`, `C89_real_msle` |
| C90 | Changing the learning rate takes effect from the next update on and changes nothing else | OptRate.lean adds getter, setter and programs of calls to the optimizers of C44 to C48; induction over the program with the closed form of the tensor as invariant, locality (C45) for the calls on other tensors. | partial | `C90_grad_descent`, `C90_sto_grad_descent`, `C90_momentum`, `C90_nestorov`, `C90_adagrad`, `C90_rmsprop`, `C90_adam`, `C90_fresh`, `C90_sto_grad_descent_violated` |
| C91 | Finite numbers give finite results | Spec/Ieee.lean defines floating-point numbers with infinities and NaN over an arbitrary monotone rounding; the code is that of Flt.lean; interval reasoning with representable bounds. | partial | `C91_activations_partial`, `C91_derivatives_partial`, `C91_selu_partial`, `C91_softplus_partial`, `C91_gelu_derivative_partial`, `C91_swish_derivative_partial`, `C91_softmax`, `C91_cce`, `C91_bce_partial`, `C91_softplus_violated`, `C91_gelu_derivative_violated`, `C91_swish_derivative_violated`, `C91_unstable_softmax_violated`, `C91_logcosh_violated`, `C91_bce_violated`, `C91_nll_violated`, `C91_real_derivatives` |
| C92 | Tensors are values | Spec/TensorVal.lean defines the abstract machine (values and names, no storage); simulation relation preserved by every operation of the heap-level model of TensorMem.lean; induction over the history. | partial | `C92_values_partial`, `C92_swap_view_violated` |
| C93 | Functions that return tensors return new, independent objects | Heap-level model of the value-returning overloads (HeapLinear.lean) on top of the in-place loops of C85; frame reasoning about the fresh allocation. | partial | `C93_row`, `C93_col`, `C93_mat`, `C93_outer`, `C93_transpose`, `C93_inverse_partial`, `C93_inverse_violated`, `C93_temporary`, `C93_chain` |
| C94 | References to container elements | Model/ContRef.lean evaluates the forwarded reference after the reallocation, as the code does; invariants of C22; a per-operation frame lemma for the data pointer. | partial | `C94_push_partial`, `C94_resize_partial`, `C94_push_violated`, `C94_resize_violated`, `C94_stable`, `C94_reserve` |
| C95 | A save that was cut short is never loaded as if complete | Spec/Cut.lean relates a reader on a stream to the same reader on its extension; compositional through every record reader of Model/Serial.lean, combined with the round trips of C45-C47. | proved | `C95_tensor`, `C95_regression`, `C95_pooling`, `C95_network`, `C95_container`, `C95_serializer` |
| C96 | Networks in different threads do not interfere | Model/Thread.lean writes the members of layers, network and training as programs whose steps are single loads and stores; C96_alone shows that run alone they are the functions of C86. Threads.run interleaves them by a schedule. Every program stays within the allocations of its own tensors and of the data it reads (compositional Within), so an invariant (each thread ends as it would alone) is kept by every step of every thread; the construction part uses that C86 builds fresh allocations. | proved | `C96_independent`, `C96_feedforward`, `C96_training`, `C96_program`, `C96_library`, `C96_alone`, `C96_shared_race`, `C96_shared_overwrites` |
| C97 | Programs that create and destroy networks leak nothing | Model/HeapLife.lean writes the destructors of layers, network and training object member by member; Life.run executes a list of create, call and destroy. Invariant by induction on the history: the live allocations are those of the start and the owned tensors of existing networks, tensors of different networks are in different allocations, and each network represents the value state of its own calls (C86, with the construction lemma extended to an exact description of what became live). | proved | `C97_history`, `C97_no_leak`, `C97_gone` |
| C98 | Optimizers with state tables follow their formulas in memory, and free everything | Model/HeapOpt.lean writes the five update functions on the free store, with OptMem.get allocating table entries. HMom.Is etc. relate tables in memory to tables of values; FollowsIn is the simulation of one update, lifted through layers, network and all training methods (HTrain.LiveIn: allocations before number N belong to network and data, from N on to the tables), then joined with the construction theorem of C97 and the destructors. | proved | `C98_momentum`, `C98_nestorov`, `C98_adagrad`, `C98_rmsprop`, `C98_adam` |
| C99 | One optimizer object can serve several networks | Spec/Shared.lean: Serves says the shared run ends in `ends` iff each network alone, with the calls on it, ends in its entry. Proof: an update reads and writes the state only at its key (LocalUpd), lifted through layers, network, trace events and training calls as a lockstep relation on two optimizer states that agree on the keys of a network, then induction over the interleaving. | partial | `C99_library_partial`, `C99_adam_violated` |

## Properties the code violates

For these the negation (or the exact wrong behaviour) is proved for all the inputs it concerns (`…_violated`) and the part that
does hold is proved separately (`…_partial`); the manifest status is `partial`:

C04 vector copy constructor, C05 copy assignment between different sizes, C06 copying a resized default-constructed matrix, C09
value-returning members on const tensors, C14 search along Axis::Y, C23 copy-constructed container with spare capacity, C29
stochastic training after batch training, C33 convolution gradients after the first update, C35 training max-pooling forward, C42
functors that hold their state by value, C48 Adam shared by several tensors, C49 GELU derivative, C52 MAE/BCE/CCE derivatives, C53
sigmoid with BCE, C59 loaded MaxPooling layers, C63 resize of vectors by shape, C64 Container::resize with an rvalue, C65 convolution
directly before a dense layer, C66 optimizer state after address reuse, C68 concurrent evaluation of MSE/MSLE, C72 and C73 allocation failures and throwing
elements, C74 copies of used optimizers, C75 assignment through references returned by
lockers, C76 iterator arithmetic, C79 resuming a training with a stateful optimizer or a convolution, C81 seeds of the default random generator, C84
gradient descent through convolutions after the first step, C85 in-place linear operations, C87 the
reference returned by feedforward, C88 padding with two numbers, C89 NaN in ReLU, max-pooling, argmax, accuracies and the
MAE derivative, C90 the decay of StoGradDescent after a rate change, C91 overflow of SoftPlus, of the GELU and Swish derivatives, of LogCosh and NLL, BCE in float, C92 exchanging an owning tensor with a view, C93 inverse of a matrix of depth 0, C94 emplace_back of an own element of a full container, C99 Adam shared by several networks, C100 a training object older than the last layer, C109 running out of memory in an update, C125 the optimizer rules on convolutions after the first step. C43 is `proved`
because its statement is about programs that follow the ownership discipline; what breaking it leads to is proved beside it.

## Trusted base

* The Lean 4.33.0 kernel and the standard axioms `propext`, `Classical.choice`, `Quot.sound`; which theorem uses which is listed at the
  end. No own axioms, nothing proved by compiled code.
* The hand translation of the C++ into `Model/*` (each definition cites its lines and says where it simplifies).
* The specifications in `Spec/*` (they are what a reader has to agree with).
* For C58–C60 the external SF serialization library (not part of /repo), as the hypothesis `Codec.Lawful` (Spec/Serial.lean): primitive
  values, element spans and class keys of registered polymorphic pointers read back what was written, consuming exactly those bytes.

## What is modelled

| source (include/Trixy/) | model |
|---|---|
| Lique/Shape, Tensor, Matrix, Vector, TensorBase (constructors, destructor, assignment, moves, copy/resize/reshape/view/fill/swap, element-wise members, indexing) | Model/Shape, Heap, TensorMem, AllocFail |
| Lique/Tool | Model/Tool |
| Lique/Linear | Model/Linear (Mat: value-level matrices), HeapLinear (objects in the free store) |
| Lique/Detail/FunctionDetail (block_loop, element loops) | Model/Tool, TensorMem |
| Container/Container | Model/Container, ContThrow, ContRef, Iter |
| Locker/* | Model/Locker |
| Random/Core, Detail/FunctionDetail (parallel_info) | Model/Random, RandObj |
| Neuro/Functional/Function/Activation, ActivationLess | Model/Act, Scalar, Softmax, Flt (any floating-point type) |
| Neuro/Functional/Function/Loss | Model/Loss, LossRace, Flt, FltLoss (any floating-point type) |
| Neuro/Functional/Optimizer/* | Model/Elem, Optim, AdamFlt, OptRate, OptMem (storage), HeapOpt (updates in the free store), OptFail (memory running out) |
| Neuro/Network/Layer/FullyConnected, Convolutional, MaxPooling, Volume | Model/FC, Conv, Pool, Volume (tensors as values), HeapNet, HeapBuild, HeapLife (objects in the free store) |
| Neuro/Network/UnifiedNet, Neuro/Training/UnifiedNet | Model/Net, Train, Grow, Own (object ownership), HeapNet, HeapBuild, HeapLife, Thread (interleaved accesses to tensors; scalar members and optimizer belong to one thread) |
| Neuro/Regression/*, Neuro/Training/*Regression | Model/Regression |
| Neuro/Checker/* | Model/Checker |
| Serializer, Neuro/Serializer, CONDITIONAL_SERIALIZATION blocks | Model/Serial |

## Not modelled

* NaN and infinities outside C89 and C91, rounding outside C78 and C91 (fold-form theorems are independent of them; ring/real ones are not claims
  about IEEE arithmetic), float/double promotions, and the C++ memory model beyond sequentially consistent interleavings (LossRace, Thread).
* Exceptions other than those of C72 and C73 (allocation in tensors, allocation and elements in Container); evaluation-order freedoms of C++ that do not affect the results (single-expression loads).
* The bytes of the archive format and SF itself, I/O helpers, `test/` and its MNIST reader, `std::` internals, timing.
* Type-level machinery (Require/*, Detail/*Meta, type traits, SFINAE selection, CRTP): resolved by hand while translating.
* Code that cannot compile when it is instantiated: `lique::mean(Matrix, Axis)` and with it `std(Matrix, Axis)` (Tool.hpp:243-340; they call
  `Vector::resize` with two arguments, which does not exist), `concat(Container)` (Tool.hpp:386-407; writes through pointers to const),
  the shape constructors of `Vector` (Vector.hpp:40-59; `this->data = …` names a function), the value constructors of `Range`
  (`fill(first, last)`) and the non-const `Range<T, Unified>::first()` (returns the size), `Training::update`, `TrixyNet::remove`, `Optimizer::reset`, the const getter `IOptimizer::learning_rate()`.

## Axioms of each manifest theorem (`#print axioms`)

* **none**: `C01_overflow_witness`, `C07_move_ctor`, `C12_unique`, `C61_narrow`, `C63_resize_shape_partial`, `C88_filter_violated`, `C88_horizontal_padding_ignored`, `C88_short_forms`

* **propext**: `C07_move_assign`, `C09_const_members_partial`, `C10_view_aliases`, `C10_view_range`, `C10_view_size`, `C10_views_never_own`, `C12_empty`, `C13_accumulate`, `C37_empty`, `C40_zero`, `C41_visits`, `C58_serializer`, `C63_resize_shape_violated`, `C69_checker_one`, `C72_constructor_partial`, `C75_container`, `C75_swap_violated`, `C80_adam`, `C87_convolution_violated`, `C87_reference`, `C92_swap_view_violated`

* **propext, Classical.choice, Quot.sound**: `C01_matrix`, `C01_surjective`, `C02_memory_safe`, `C03_copy_ctor_deep`, `C05_copy_assign_partial`, `C05_larger_violated`, `C05_smaller_violated`, `C06_resized_matrix_copy_violated`, `C06_valued_matrix_copy_partial`, `C08_add`, `C08_add2`, `C08_apply`, `C08_apply2`, `C08_copy`, `C08_fill`, `C08_fill_generator`, `C08_join`, `C08_join2`, `C08_mul`, `C08_mul2`, `C08_sub`, `C08_sub2`, `C09_const_members_violated`, `C100_losses`, `C100_other_size_violated`, `C100_same_shape_partial`, `C101_constant`, `C101_copies`, `C101_library`, `C101_library_floats`, `C101_twins`, `C101_uninitialised`, `C102_accuracy`, `C102_argmax`, `C102_network`, `C102_others`, `C103_batch`, `C103_linear`, `C103_loss_gd`, `C103_loss_momentum`, `C103_loss_nestorov`, `C103_loss_sgd`, `C103_mini_batch`, `C103_poly`, `C103_scores`, `C104_adam`, `C104_constant`, `C104_fit`, `C104_library`, `C104_zero`, `C105_adagrad`, `C105_adam`, `C105_gd`, `C105_hidden`, `C105_hidden_training`, `C105_library`, `C105_momentum`, `C105_nestorov`, `C105_predict`, `C105_rmsprop`, `C105_sgd`, `C106_dense`, `C106_linear`, `C106_local`, `C106_padding`, `C106_pointwise`, `C106_rename`, `C106_shift`, `C107_compose`, `C107_library`, `C107_monotone`, `C107_rearrange`, `C109_adagrad`, `C109_adam`, `C109_enough`, `C109_gd`, `C109_momentum`, `C109_nestorov`, `C109_rmsprop`, `C109_sgd`, `C110_higher_degree`, `C110_interpolation`, `C110_mean_linear`, `C110_mean_poly`, `C110_more_features`, `C110_poly_is_linear`, `C110_repeat_linear`, `C110_repeat_poly`, `C110_superpose_linear`, `C110_superpose_poly`, `C110_units_linear`, `C110_units_poly`, `C111_merge`, `C111_rescale`, `C111_sigmoid_flip`, `C111_softmax_shift`, `C111_tanh_sigmoid`, `C111_two_classes`, `C112_lipschitz`, `C112_margin`, `C112_parameters`, `C112_stable`, `C113_limit`, `C113_rest`, `C113_stops`, `C114_adam`, `C114_batch`, `C114_library`, `C114_mini_batch`, `C114_stochastic`, `C115_adagrad`, `C115_adam`, `C115_momentum`, `C115_nestorov`, `C115_rmsprop`, `C115_sgd`, `C116_best`, `C116_learns`, `C116_object`, `C116_regression`, `C116_regret`, `C117_cce`, `C117_classes`, `C117_full_global`, `C117_learns`, `C117_mae`, `C117_mse`, `C117_network`, `C117_nll`, `C117_range`, `C118_adagrad`, `C118_adam`, `C118_descent`, `C118_gd`, `C118_momentum`, `C118_nestorov`, `C118_reported`, `C118_rest`, `C118_rmsprop`, `C118_rule`, `C118_sgd`, `C118_stops`, `C119_batch`, `C119_class`, `C119_mini_batch`, `C119_real_derivatives`, `C119_real_losses`, `C119_stochastic`, `C11_reshape`, `C11_reshape_matrix`, `C120_bounded`, `C120_forgets`, `C120_influence`, `C120_optimum`, `C121_margin`, `C121_mistakes`, `C121_rate`, `C121_regret`, `C122_energy`, `C122_learns`, `C122_limit`, `C122_momentum`, `C122_nestorov`, `C123_learns`, `C123_limit`, `C123_steps`, `C124_band`, `C124_loss`, `C124_restless`, `C125_adam`, `C125_batch`, `C125_mini_batch`, `C125_pile`, `C125_stochastic`, `C125_violated`, `C126_approximates`, `C126_classifies`, `C126_exists`, `C126_identity`, `C126_memorises`, `C126_no_loss`, `C126_no_xor`, `C126_xor`, `C127_dead_input`, `C127_distributions`, `C127_diverges`, `C127_nearest`, `C127_regression`, `C127_smallest`, `C127_unseen`, `C128_balance`, `C128_descends`, `C128_mean`, `C128_sharp`, `C128_single`, `C129_converges`, `C129_distance`, `C129_total`, `C130_cycle`, `C130_forgets`, `C130_off`, `C130_rate`, `C131_cycle`, `C131_passes`, `C131_some`, `C132_infimum`, `C132_object`, `C132_optimum`, `C132_some`, `C13_mean`, `C13_mean_between`, `C13_mean_empty`, `C13_std`, `C13_std_zero_iff`, `C14_axisY_violated`, `C16_no_impossible_outcome`, `C17_iff`, `C18_algebra`, `C18_inner`, `C19_accumulates`, `C19_accumulates_sum`, `C19_product`, `C20_tensordot`, `C20_transpose`, `C20_transpose_product`, `C20_transpose_twice`, `C21_invertible`, `C21_singular`, `C21_value`, `C22_refines_list`, `C23_copy_ctor_partial`, `C23_copy_ctor_violated`, `C24_lifetimes`, `C26_forward`, `C26_history`, `C26_history_free`, `C27_backward`, `C27_curve`, `C27_partials`, `C28_accumulated`, `C28_latest`, `C28_new_layer`, `C28_update_hands`, `C29_clean_partial`, `C29_layer_violated`, `C29_violated`, `C31_forward`, `C31_history`, `C32_adjoint`, `C32_backward`, `C32_curve`, `C32_partials`, `C33_actual`, `C33_first_update_partial`, `C33_violated`, `C34_forward`, `C34_history`, `C34_nondividing`, `C35_defined_partial`, `C35_fresh_violated`, `C35_violated`, `C36_backward`, `C37_feedforward`, `C37_history`, `C37_layer`, `C38_backprop`, `C38_library`, `C38_partials`, `C39_batch`, `C39_descent`, `C40_gd`, `C42_by_reference`, `C42_by_value`, `C42_by_value_violated`, `C43_all_released`, `C43_connect`, `C43_conv_connect_violated`, `C43_copy_violated`, `C43_destroy`, `C43_double_add_violated`, `C43_no_activation_violated`, `C43_ownership`, `C43_reconnect_violated`, `C43_setLoss`, `C43_train_copy_violated`, `C43_training_outlives_network_violated`, `C44_gd_sequence`, `C45_adagrad`, `C45_momentum`, `C45_nestorov`, `C45_rmsprop`, `C46_momentum`, `C46_nestorov`, `C47_adagrad`, `C47_adagrad_bound`, `C47_rmsprop`, `C47_rmsprop_positive`, `C48_adam_counts_all_calls`, `C48_adam_partial`, `C48_adam_violated`, `C49_derivative_partial`, `C49_gelu_violated`, `C49_kinks`, `C49_value`, `C50_range_monotone`, `C50_relu_idempotent`, `C50_sigmoid_self`, `C51_distribution`, `C51_empty`, `C51_stable`, `C52_bce_derived_violated`, `C52_cce_violated`, `C52_gradients_partial`, `C52_mae_violated`, `C52_values`, `C53_cross_entropy_gradient`, `C53_nll_gradient`, `C53_sigmoid_bce_violated`, `C53_softmax_cce`, `C53_softmax_nll`, `C54_nonneg`, `C55_from_construction`, `C55_initialize_lvalue`, `C55_linear`, `C55_linear_agree`, `C55_linear_sample`, `C55_poly`, `C55_poly_agree`, `C55_poly_sample`, `C56_exact_linear`, `C56_exact_poly`, `C56_from_construction`, `C56_linear`, `C56_not_identified_linear`, `C56_not_identified_poly`, `C56_poly`, `C56_poly_ident`, `C57_boundary`, `C57_empty`, `C57_full`, `C57_global`, `C57_network`, `C57_normal`, `C57_unit_interval`, `C58_container`, `C58_convolutional`, `C58_dense`, `C58_fully_connected`, `C58_network`, `C58_predictions`, `C59_violated`, `C60_container`, `C61_floating`, `C61_full_range`, `C61_integral`, `C61_monotone`, `C61_reaches`, `C64_resize_partial`, `C64_resize_violated`, `C65_network_violated`, `C65_single_row_partial`, `C65_violated`, `C66_address_reuse_violated`, `C67_from_construction`, `C67_library`, `C67_msle_not_total`, `C67_training`, `C69_training`, `C70_backward`, `C70_forward`, `C70_history`, `C71_descent`, `C71_library`, `C72_assign_violated`, `C72_harmless_failures_partial`, `C72_resize_violated`, `C73_assign_alloc_violated`, `C73_assign_elem_violated`, `C73_constructor_leak_violated`, `C73_exceptions_partial`, `C73_move_violated`, `C75_assign_violated`, `C75_locked_partial`, `C75_memory_safe_partial`, `C76_plus_violated`, `C76_traverse_partial`, `C77_adagrad`, `C77_adam`, `C77_gd`, `C77_momentum`, `C77_nestorov`, `C77_rmsprop`, `C78_accumulate`, `C78_activation`, `C78_backward`, `C78_convolution_backward`, `C78_feedforward`, `C78_inner`, `C78_layer`, `C78_momentum`, `C78_product`, `C78_relu`, `C78_stochastic_descent`, `C78_update`, `C79_batch_partial`, `C79_convolution_violated`, `C79_mini_batch_partial`, `C79_momentum_violated`, `C79_stochastic_partial`, `C80_batch`, `C80_mini_batch`, `C80_stochastic`, `C81_copy`, `C81_default_shared`, `C81_default_violated`, `C81_own`, `C82_accuracy`, `C82_batch`, `C82_linear`, `C82_mini_batch`, `C82_poly`, `C82_stack_batch`, `C82_stack_mini_batch`, `C83_backprop`, `C83_library`, `C83_partials`, `C84_batch`, `C84_descent_partial`, `C84_first_epoch_partial`, `C84_heavy_ball`, `C84_library_partial`, `C84_mini_batch`, `C84_stochastic`, `C84_violated`, `C85_col_partial`, `C85_col_violated`, `C85_inverse_partial`, `C85_inverse_violated`, `C85_mat_partial`, `C85_mat_violated`, `C85_mat_witness`, `C85_outer_partial`, `C85_row_partial`, `C85_row_violated`, `C85_transpose_iff`, `C85_transpose_partial`, `C85_transpose_violated`, `C86_batch`, `C86_build`, `C86_feedforward`, `C86_init`, `C86_library`, `C86_loss`, `C86_mini_batch`, `C86_placement`, `C86_program`, `C86_stochastic`, `C87_feedback_partial`, `C87_from_construction`, `C87_inference_violated`, `C87_result_violated`, `C87_target_violated`, `C87_target_zero`, `C88_conv_partial`, `C88_dense`, `C88_pool`, `C89_activation`, `C89_adam`, `C89_convolution`, `C89_dense`, `C89_dense_parameters`, `C89_full_violated`, `C89_global`, `C89_loss`, `C89_network`, `C89_normal_violated`, `C89_optimizers`, `C89_pool_drops_violated`, `C89_pool_violated`, `C89_real_activations`, `C89_real_losses`, `C89_real_msle`, `C89_relu_network_violated`, `C89_relu_violated`, `C89_softmax`, `C90_adagrad`, `C90_adam`, `C90_grad_descent`, `C90_momentum`, `C90_nestorov`, `C90_rmsprop`, `C90_sto_grad_descent`, `C90_sto_grad_descent_violated`, `C91_activations_partial`, `C91_bce_partial`, `C91_bce_violated`, `C91_cce`, `C91_derivatives_partial`, `C91_gelu_derivative_partial`, `C91_gelu_derivative_violated`, `C91_logcosh_violated`, `C91_nll_violated`, `C91_real_derivatives`, `C91_selu_partial`, `C91_softmax`, `C91_softplus_partial`, `C91_softplus_violated`, `C91_swish_derivative_partial`, `C91_swish_derivative_violated`, `C91_unstable_softmax_violated`, `C92_values_partial`, `C93_chain`, `C93_col`, `C93_inverse_partial`, `C93_inverse_violated`, `C93_mat`, `C93_outer`, `C93_row`, `C93_transpose`, `C94_push_partial`, `C94_push_violated`, `C94_reserve`, `C94_resize_partial`, `C94_resize_violated`, `C94_stable`, `C95_container`, `C95_network`, `C96_feedforward`, `C96_independent`, `C96_library`, `C96_program`, `C96_shared_overwrites`, `C96_training`, `C97_gone`, `C97_history`, `C97_no_leak`, `C98_adagrad`, `C98_adam`, `C98_momentum`, `C98_nestorov`, `C98_rmsprop`, `C99_adam_violated`, `C99_library_partial`, `Losses.C68_data_race_violated`, `Losses.C68_exclusive_partial`, `Losses.C68_local_loops`, `Losses.C68_local_partial`, `Losses.C68_one_thread_per_function_partial`, `Losses.C68_violated`, `OptMem.C74_copy_violated`, `OptMem.C74_entry`, `OptMem.C74_storage_partial`, `adam_UpdOk`, `avgStep_descent`, `net_partials`, `rawPool_computes`, `softMaxAct_Is`, `tells_adagrad`, `tells_nestorov`, `tells_rmsprop`

* **propext, Quot.sound**: `C01_in_bounds`, `C01_injective`, `C01_write`, `C01_write_matrix`, `C04_vector_copy_partial`, `C04_vector_copy_violated`, `C08_alias_patterns`, `C104_adagrad`, `C104_gd`, `C104_momentum`, `C104_nestorov`, `C104_rmsprop`, `C108_history`, `C108_library`, `C108_loss`, `C108_shared`, `C109_terminates_violated`, `C10_view_copies`, `C114_adagrad`, `C114_gd`, `C114_momentum`, `C114_nestorov`, `C114_rmsprop`, `C114_sgd`, `C125_adagrad`, `C125_dense_partial`, `C125_first_partial`, `C125_gd`, `C125_momentum`, `C125_nestorov`, `C125_rmsprop`, `C125_sgd`, `C12_argmax`, `C12_argmin`, `C12_max_min`, `C14_axisX`, `C15_concat`, `C16_inverse_cdf`, `C17_exact`, `C17_full_width_visits_nothing`, `C17_single_column_skips_last`, `C18_col`, `C18_row`, `C25_amortised`, `C26_raw`, `C30_geometry`, `C38_single_layer`, `C39_schedule`, `C39_visits`, `C40_schedule`, `C40_visits`, `C41_empty`, `C41_schedule`, `C44_gd`, `C44_sgd`, `C55_initialize`, `C58_regression`, `C58_tensor`, `C58_tensor_uninit`, `C59_empty_partial`, `C59_loaded`, `C62_parallel_info`, `C62_remainder`, `C66_address_reuse_same_size_partial`, `C67_adam`, `C69_checker`, `C79_same_objects_partial`, `C80_optimizers`, `C81_default_partial`, `C82_whole_batch`, `C88_padding_violated`, `C89_argmax_violated`, `C89_mae_derivative_violated`, `C90_fresh`, `C93_temporary`, `C95_pooling`, `C95_regression`, `C95_serializer`, `C95_tensor`, `C96_alone`, `C96_shared_race`, `adagrad_UpdOk`, `gd_UpdOk`, `mom_UpdOk`, `nes_UpdOk`, `rmsprop_UpdOk`, `set1_sameExcept`, `sgd_UpdOk`, `tells_momentum`
