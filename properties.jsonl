{"id": "C01", "title": "Row-major indexing of tensors and matrices is a bijection", "statement": "For a tensor of shape (d,h,w) (matrix: (h,w)) whose element count fits size_t, operator()(i,j,k) with in-range indices always designates a cell inside the allocation, different in-range index triples designate different cells, and every cell 0..size()-1 is designated by some in-range triple. If d*h*w overflows size_t the claim fails and the in-range access (0,0,0) may already be outside the allocation.", "quantifier": "all depths, heights, widths and all index triples", "why_tests_cant": "tests touch a few shapes; the claim is about every shape and index and about 64-bit wrap-around", "anchors": ["include/Trixy/Lique/Shape.hpp: Shape", "include/Trixy/Lique/Tensor.hpp: at, operator()", "include/Trixy/Lique/Matrix.hpp: at, operator()"]}
{"id": "C02", "title": "Owning tensors never double-free, leak or touch freed memory", "statement": "In every history of default/size/value/list construction, copy construction, move construction, move assignment, copy assignment to a destination that is not larger, resize, element-count preserving reshape, fill, in-range element write, destruction of Vector/Matrix/Tensor objects and making, copying, assigning, writing through and destroying views, in which a moved-from object is only destroyed, resized, moved from or assigned to, no operation performs an invalid delete or an access through a freed or null pointer or outside an allocation, every allocation has exactly one owner, and once every object is destroyed no allocation is left.", "quantifier": "all operation histories over any number of vectors, matrices and tensors", "why_tests_cant": "memory errors depend on the history, and tests only run a few histories", "anchors": ["include/Trixy/Lique/Tensor.hpp: constructors, operator=, resize", "include/Trixy/Lique/Matrix.hpp", "include/Trixy/Lique/Vector.hpp"]}
{"id": "C03", "title": "Copy construction of a Tensor is a deep, independent copy", "statement": "Constructing a 3-D Tensor from another yields an object with the same shape, size and elements that lives in its own allocation: later writes to either object are never visible in the other. The same holds for a Matrix whose depth field is 1.", "quantifier": "all shapes, contents and later writes", "why_tests_cant": "independence is about all later writes", "anchors": ["include/Trixy/Lique/Tensor.hpp: Tensor(const Tensor&)", "include/Trixy/Lique/Matrix.hpp: Tensor(const Tensor&)"]}
{"id": "C04", "title": "Copy construction of a Vector preserves its contents", "statement": "Constructing a Vector from another Vector yields a vector of the same size with the same elements. (The code violates this for every non-empty vector: the copy has size 0; a regression's init(weight) that takes its argument by value therefore reads uninitialised memory.)", "quantifier": "all vectors", "why_tests_cant": "must hold for all sizes; no test copies a Vector", "anchors": ["include/Trixy/Lique/Vector.hpp: Tensor(const Tensor&)", "include/Trixy/Neuro/Regression/Linear.hpp: init", "include/Trixy/Neuro/Regression/Polynomial.hpp: init"]}
{"id": "C05", "title": "Copy assignment of Matrix/Tensor transfers all elements", "statement": "After a = b, a has b's elements, size, height and width and a later write to a never changes b. (The code copies with the destination's old element count: it is correct exactly when the two sizes are equal; a larger destination writes out of bounds, a smaller one is left with uninitialised elements.)", "quantifier": "all pairs of sizes and contents", "why_tests_cant": "depends on the relation of the two sizes", "anchors": ["include/Trixy/Lique/Tensor.hpp: operator=(const Tensor&)", "include/Trixy/Lique/Matrix.hpp: operator=(const Tensor&)"]}
{"id": "C06", "title": "A resized default-constructed Matrix can be copied", "statement": "A Matrix that was default constructed and then resized to (h,w) and filled can be copy constructed with the same elements. (Violated: the depth field stays 0, and the copy has size 0.)", "quantifier": "all h, w >= 1 and contents", "why_tests_cant": "universal over sizes; tests never copy such a matrix", "anchors": ["include/Trixy/Lique/Matrix.hpp: resize, Tensor(const Tensor&)"]}
{"id": "C07", "title": "Moves transfer the allocation without copying or leaking", "statement": "Move construction/assignment hands over exactly the source's allocation and shape: the destination reads the same elements, the source's data pointer becomes null, the destination's former allocation is freed exactly once, and destroying the source afterwards frees nothing.", "quantifier": "all source/destination states", "why_tests_cant": "all states and orders of destruction", "anchors": ["include/Trixy/Lique/TensorBase.hpp: Tensor(Tensor&&)", "include/Trixy/Lique/Tensor.hpp", "include/Trixy/Lique/Matrix.hpp", "include/Trixy/Lique/Vector.hpp: operator=(Tensor&&)"]}
{"id": "C08", "title": "In-place element-wise arithmetic is exact under aliasing", "statement": "x.add(y), x.sub(y), x.mul(y), x.join(c), x.apply(f), x.fill(c), x.copy(y) and their two-operand forms x.add(y,z) set element i of x to the operation on the old elements i, leave every other allocation and every cell past size() unchanged, and stay correct when y and/or z are x itself.", "quantifier": "all sizes, element types with arbitrary arithmetic, all alias patterns among x,y,z", "why_tests_cant": "all sizes and alias patterns", "anchors": ["include/Trixy/Lique/TensorBase.hpp", "include/Trixy/Lique/Detail/FunctionDetail.hpp: assign, apply, copy, fill", "include/Trixy/Lique/Linear.hpp: add, sub, mul, join, apply, assign"]}
{"id": "C09", "title": "Value-returning element-wise members on const tensors are usable", "statement": "The const overloads add/sub/mul/join/apply of a non-empty tensor return a tensor holding the element-wise result. (Violated for every non-empty tensor: the result is built over a null pointer, so the call is undefined behaviour.)", "quantifier": "all sizes >= 1", "why_tests_cant": "no test calls them", "anchors": ["include/Trixy/Lique/TensorBase.hpp: add(const Tensor&) const, sub, mul, join, apply"]}
{"id": "C10", "title": "Views alias their owner and never own memory", "statement": "A view over a tensor's data reads exactly the current elements of the tensor, a write through either is visible in the other, and destroying, copying or reassigning views never frees or allocates memory.", "quantifier": "all views, writes and histories", "why_tests_cant": "all interleavings of writes", "anchors": ["include/Trixy/Lique/Tensor.hpp: TensorView", "include/Trixy/Lique/Matrix.hpp: MatrixView", "include/Trixy/Lique/Vector.hpp: VectorView", "include/Trixy/Range/View.hpp"]}
{"id": "C100", "title": "Layers may be added after the training object was created", "statement": "A training object refers to its network, so a network that is extended by add after the training object was created is trained as the extended network: every later program does the same as if a new training object (with the same loss) were created after each add. VIOLATED: the delta of the training object keeps the size of the output at its creation; if an added dense layer has another number of outputs, every batch training is undefined behaviour. (The member update() that should adapt it does not compile.)", "quantifier": "all networks, all sequences of training calls, loss changes, loss evaluations, feed-forwards and additions of layers, all optimizers, all losses whose derivative overwrites its result (all seven of the library do)", "why_tests_cant": "every sequence of calls and additions has to be compared with its counterpart, including which of them are defined", "anchors": ["include/Trixy/Neuro/Network/UnifiedNet.hpp: add", "include/Trixy/Neuro/Training/UnifiedNet.hpp: Training, backprop, update", "include/Trixy/Neuro/Functional/Function/Loss.hpp"]}
{"id": "C101", "title": "Hidden units that are copies of each other stay copies, bit for bit", "statement": "If two units of a hidden layer between two dense layers start with the same bias, the same incoming weights and the same outgoing weights, then after any sequence of training calls they still have, in exactly the computed values, and for every input they have the same output. In particular a network that is never initialised, or that is initialised by a generator that returns one value, has hidden layers that behave like a single unit forever: initialisation by different values is needed.", "quantifier": "all networks of dense, convolutional and pooling layers in which the compared units lie between dense layers, all comparisons of units (any relation), all seven optimizers (and any other that treats cells alike), all losses, all data sets, all sequences of batch, mini-batch and stochastic training, evaluation and loss changes, any arithmetic (no associativity needed)", "why_tests_cant": "exact equality has to hold for every history of updates and in every arithmetic; summation order and the position dependence of every loop decide it", "anchors": ["include/Trixy/Neuro/Network/Layer/FullyConnected.hpp: forward, backward, accumulate, update", "include/Trixy/Neuro/Training/UnifiedNet.hpp: batch, miniBatch, stochastic", "include/Trixy/Neuro/Functional/Optimizer", "include/Trixy/Neuro/Functional/Function/Activation.hpp"]}
{"id": "C102", "title": "The activation of the last layer does not change the predicted class", "statement": "Applying an activation of the library other than ReLU, GELU and Swish to a vector leaves the position of its maximum where argmax finds it; so a network that ends in a dense layer predicts, on every input, the same class whichever of these activations (SoftMax included) the last layer has, and has the same accuracy on every data set. For ReLU, GELU and Swish this is false.", "quantifier": "all networks of dense, convolutional and inference pooling layers that end in a dense layer, all parameters, all inputs, all data sets, all pairs of the eleven order-keeping activations, real arithmetic", "why_tests_cant": "ranges over all parameters and inputs, including ties and inputs on both sides of the kinks", "anchors": ["include/Trixy/Neuro/Functional/Function/Activation.hpp", "include/Trixy/Neuro/Functional/Function/ActivationLess.hpp", "include/Trixy/Lique/Tool.hpp: argmax", "include/Trixy/Neuro/Checker/Accuracy.hpp: normal", "include/Trixy/Neuro/Network/UnifiedNet.hpp: feedforward"]}
{"id": "C103", "title": "Repeating the data and multiplying the loss have the effect they have on paper", "statement": "Training with batch on a data set in which every sample occurs c times as often (in any order), or with mini_batch on c times larger batches that hold the samples of the original batches c times, ends with the same parameters and the same optimizer state as training on the original data; linear and polynomial regressions get the same weights (or fail alike); the three accuracies and the mean loss are the same. Training with a loss whose derivative is c times larger, by batch, mini_batch or stochastic, ends with the same parameters as training with the original loss and a c times larger learning rate, for GradDescent, Momentum, Nestorov and, with the decay adapted, StoGradDescent.", "quantifier": "all dense networks, data sets, multiplicities, orders, batch sizes, epochs, generators; every optimizer that keeps arrays allocated (all seven of the library) for repetition; exact arithmetic in any field in which c is not zero", "why_tests_cant": "ranges over all data sets, networks and histories; floating point tests can only compare within a tolerance that would hide a wrong average", "anchors": ["include/Trixy/Neuro/Training/UnifiedNet.hpp: batch, mini_batch, stochastic, updating", "include/Trixy/Neuro/Network/Layer/FullyConnected.hpp: accumulate, update", "include/Trixy/Neuro/Functional/Optimizer", "include/Trixy/Neuro/Regression", "include/Trixy/Neuro/Checker/Accuracy.hpp"]}
{"id": "C104", "title": "Training moves nothing that has no gradient", "statement": "A network whose outputs already are the targets (more generally: on which the derivative of the loss vanishes for every sample) is left exactly as it is by batch, mini_batch and stochastic training, for any number of epochs, with GradDescent, Momentum and Nestorov (with zero velocity), AdaGrad and RMSProp (any state) and Adam (with zero first moment); with the library losses MSE and LC it is enough that outputs equal targets. A network that is trained without having been initialised (all weights and hidden biases zero, hidden activations sending 0 to 0) learns the biases of its last layer and nothing else: after any training its weights are still all zero and it computes the same output for every input.", "quantifier": "all dense networks of at least two layers, data sets, batch sizes, epochs, generators and optimizer states; exact arithmetic", "why_tests_cant": "ranges over all networks, data sets and histories; the interesting case is the one in which every step is a no-op, which a test over samples cannot establish for the next step", "anchors": ["include/Trixy/Neuro/Training/UnifiedNet.hpp: batch, mini_batch, stochastic, updating", "include/Trixy/Neuro/Network/Layer/FullyConnected.hpp: forward, backward, accumulate, update", "include/Trixy/Neuro/Functional/Optimizer", "include/Trixy/Neuro/Functional/Function/Loss.hpp"]}
{"id": "C105", "title": "The order of the units of a network is immaterial", "statement": "Take a network and rename its units: put the inputs, the units of every hidden layer and the outputs in another order and move biases and weights accordingly. The renamed network predicts the renamed outputs for renamed inputs, and it stays a renaming of the first under training: batch, mini_batch and stochastic training of both networks with the same optimizer (GradDescent, StoGradDescent, Momentum, Nestorov, AdaGrad, RMSProp, Adam) on data that are renamed in the same way end normally on both sides with networks that again differ only in the names of their units. In particular, when only hidden units are renamed both networks make exactly the same predictions, before and after any training. The networks of library activations (softmax included) and six of the seven loss classes qualify.", "quantifier": "all dense networks of at least two layers, all renamings, data sets, batch sizes, epochs, generators and learning rates; exact arithmetic", "why_tests_cant": "ranges over all networks, permutations, data sets and training histories; an index mixed up in one loop shows only for particular sizes", "anchors": ["include/Trixy/Neuro/Network/Layer/FullyConnected.hpp: forward, backward, accumulate, update", "include/Trixy/Neuro/Training/UnifiedNet.hpp: batch, mini_batch, stochastic, updating", "include/Trixy/Neuro/Functional/Optimizer", "include/Trixy/Neuro/Functional/Function/Loss.hpp"]}
{"id": "C106", "title": "Convolution layers act locally, linearly and the same everywhere", "statement": "For every geometry (padding, strides, filter sizes) and all parameters of a convolution layer: moving the image by whole strides moves the output (at all output cells whose window ends inside the frame; without padding at all of them); an output cell depends only on the input cells of its window; apart from the biases the output is linear in the image; padding by p gives exactly the output of the unpadded layer on the image with a border of p zeros; renaming the filters renames the output channels and renaming input channels together with those of the filters changes nothing; 1x1 filters with stride 1 compute the same weighted channel sums at every pixel; and a layer whose filters cover the whole image is a FullyConnected layer with Identity: forward gives the same value, backward the same bias gradients, weight gradients and delta.", "quantifier": "all geometries, parameters, images and displacements; exact arithmetic (commutative semiring, ring for linearity)", "why_tests_cant": "ranges over all geometries and images; off-by-one errors at borders show only for particular combinations of size, padding and stride", "anchors": ["include/Trixy/Neuro/Network/Layer/Convolutional.hpp: forward, backward", "include/Trixy/Neuro/Network/Layer/FullyConnected.hpp: forward, backward"]}
{"id": "C107", "title": "Max pooling commutes with monotone functions, composes, and depends on window contents only", "statement": "For inference max-pooling layers whose strides divide the input sizes: applying a monotone function to the input has the effect of composing it with the activation, so a layer with any element-wise library activation other than GELU and Swish gives exactly what an Identity layer gives on the activated image; two pooling layers in sequence (the first without activation) are one pooling layer whose strides are the products; and rearranging or repeating cells inside windows does not change the output.", "quantifier": "all sizes, strides, images, monotone functions and element types with a linear order", "why_tests_cant": "ranges over all images, sizes and monotone functions", "anchors": ["include/Trixy/Neuro/Network/Layer/MaxPooling.hpp: forward", "include/Trixy/Neuro/Functional/Function/ActivationLess.hpp"]}
{"id": "C108", "title": "Where the parameters are in memory does not matter", "statement": "Take two training objects that are equal except for the addresses at which the parameter arrays of their networks live (no two arrays at the same address). Any sequence of calls of batch, mini_batch, stochastic, loss, feedforward and of setting the loss, with the same optimizer and the same random engine, ends for one exactly if it ends for the other, and leaves both equal again in everything but the addresses: parameters, gradients, values, deltas, flags, engine, and the loss reported afterwards. The same holds for several networks that are trained in turn with one optimizer. Every optimizer of the library qualifies, Adam included; networks may mix fully connected, convolution and pooling layers.", "quantifier": "all networks, placements, sequences of calls with all arguments, generators and engine states, and optimizers that keep state per parameter; any element type", "why_tests_cant": "ranges over all memory layouts and call histories; a test run sees only the layouts its allocator happens to produce", "anchors": ["include/Trixy/Neuro/Functional/Optimizer: update (tables keyed by address)", "include/Trixy/Neuro/Network/Layer/FullyConnected.hpp: update", "include/Trixy/Neuro/Network/Layer/Convolutional.hpp: update", "include/Trixy/Neuro/Training/UnifiedNet.hpp: batch, mini_batch, stochastic, loss"]}
{"id": "C109", "title": "Memory demand of training", "statement": "Once network, training object and optimizer exist, any sequence of training calls (batch, mini_batch, stochastic), loss evaluations and feed-forwards, of any length, allocates no array with GradDescent and StoGradDescent, at most two arrays per parameter array of the network with Momentum, Nestorov, AdaGrad and RMSProp, and at most three with Adam, so a program that had memory for that runs on forever. If such an allocation fails the caller of update gets std::bad_alloc. (The last sentence is violated: update is noexcept, so a failed allocation at the first update of a parameter ends the program by std::terminate.)", "quantifier": "all networks of dense, convolution and pooling layers whose sizes fit, call sequences of any length on data of the right shapes, hyperparameters, generators; for the failure: all optimizer states that have not seen the parameter, all memory limits", "why_tests_cant": "a bound over unboundedly many calls and all architectures; allocation failures are not reachable by ordinary tests", "anchors": ["include/Trixy/Neuro/Functional/Optimizer/Interface.hpp: get, update", "include/Trixy/Range/Unified.hpp: resize", "include/Trixy/Neuro/Functional/Optimizer/Momentum.hpp: update (and Nestorov, AdaGrad, RMSProp, Adam)", "include/Trixy/Neuro/Training/UnifiedNet.hpp: batch, mini_batch, stochastic, loss"]}
{"id": "C11", "title": "reshape with an equal element count keeps the row-major contents", "statement": "reshape(d,h,w) with d*h*w = size() keeps the elements: cell (i,j,k) of the new shape is element (i*h+j)*w+k of the old storage, so reshaping back restores every access; nothing is allocated or freed.", "quantifier": "all shapes with equal element counts", "why_tests_cant": "all shapes", "anchors": ["include/Trixy/Lique/Tensor.hpp: reshape", "include/Trixy/Lique/Matrix.hpp: reshape"]}
{"id": "C110", "title": "Regression does not depend on units, origin, multiplicity or presentation of the data", "statement": "On data that identify the weights: weights are linear in the targets (training on a*y + b*z gives a times the weights for y plus b times those for z); measuring every feature j as c_j*x + d_j with c_j nonzero (polynomial: the variable as c*x + d) leaves every prediction unchanged; showing the whole data set m times instead of once gives the same weights; a linear regression with further features and a polynomial regression of higher degree fit the training data no worse; degree k through k+1 points with distinct abscissae passes through all of them; predictions for the training samples sum to the sum of the targets; polynomial regression is linear regression on the powers of the variable.", "quantifier": "all numbers of samples and features, degrees, data identifying the weights, factors, offsets, numbers of repetitions, ordered fields", "why_tests_cant": "relations between the results of two trainings for all data and transformations", "anchors": ["include/Trixy/Neuro/Training/LinearRegression.hpp: train", "include/Trixy/Neuro/Regression/Linear.hpp: feedforward", "include/Trixy/Neuro/Training/PolynomialRegression.hpp: train", "include/Trixy/Neuro/Regression/Polynomial.hpp: feedforward"]}
{"id": "C111", "title": "Changes of the parameters that change no prediction", "statement": "In a network of fully connected library layers: multiplying weights and bias into a unit by c and dividing the weights out of it by c changes no prediction when the activation scales with c (identity: c nonzero; ReLU and LeakyReLU: c > 0; tanh and softsign: c = 1 or -1); turning round sigmoid units (signs changed, outgoing weights added to the next biases) changes none; a tanh layer equals a sigmoid layer with doubled weights and shifted biases; a layer without activation can be merged with the next; adding the same amounts to all scores of a softmax layer changes none; softmax over two classes is the sigmoid of the difference of the scores and its complement.", "quantifier": "all depths, widths, positions of the layer in the network, weights, factors, subsets of units and inputs", "why_tests_cant": "equality of functions for all parameters and inputs", "anchors": ["include/Trixy/Neuro/Network/UnifiedNet.hpp: feedforward", "include/Trixy/Neuro/Network/Layer/FullyConnected.hpp: forward", "include/Trixy/Neuro/Functional/Function/ActivationLess.hpp"]}
{"id": "C112", "title": "Small changes of the input or the parameters make small changes of the predictions", "statement": "For networks of fully connected library layers: if no input component changes by more than e, no output changes by more than e times the product over the layers of the slope bound of the activation and the largest sum of absolute weights into a unit; an output that exceeds all others by more than twice that is the predicted class of every input within e; a prediction without tie has a neighbourhood of inputs that get the same class; parameters changed within given bounds (e.g. rounded for storage) change the outputs by at most the bounds carried through the layers.", "quantifier": "all depths, widths, weights, activation classes (including GELU and softmax), inputs, perturbations", "why_tests_cant": "a bound over a continuum of perturbations of all inputs of all networks", "anchors": ["include/Trixy/Neuro/Network/UnifiedNet.hpp: feedforward", "include/Trixy/Neuro/Network/Layer/FullyConnected.hpp: forward", "include/Trixy/Neuro/Functional/Function/ActivationLess.hpp", "include/Trixy/Lique/Tool.hpp: argmax", "include/Trixy/Lique/Linear.hpp: dot"]}
{"id": "C113", "title": "Where gradient descent stops: stationary points, and only those", "statement": "Training with batch() and gradient descent on a network of library layers with MSE or LC: if the parameters after N epochs converge as N grows and no activation sits on a kink at the limit, all partial derivatives of the mean loss over the data set are zero at the limit; if one epoch changes no parameter they are zero already; if they are zero, no number of epochs changes any parameter.", "quantifier": "all depths, widths, parameters, element-wise activation classes except GELU, data sets, non-zero learning rates, numbers of epochs", "why_tests_cant": "a statement about the limit of infinitely many epochs for every network and data set", "anchors": ["include/Trixy/Neuro/Training/UnifiedNet.hpp: batch", "include/Trixy/Neuro/Network/Layer/FullyConnected.hpp: backward", "include/Trixy/Neuro/Functional/Optimizer/GradDescent.hpp: update", "include/Trixy/Neuro/Functional/Function/Loss.hpp"]}
{"id": "C114", "title": "Training a network with any optimizer class is the published rule applied to every parameter", "statement": "batch(), mini_batch() and stochastic() on a fully connected network with any of the seven optimizer classes leave exactly the parameters obtained by applying the published scalar rule of that class (gradient descent, weight decay, heavy ball, Nesterov, AdaGrad, RMSProp, Adam with the shared step counter) to every bias and weight separately, once per epoch, block or drawn sample, with the mean gradient over that epoch or block or the gradient of that sample, and its own memory per parameter. For library layers with MSE or LC the gradient is the true partial derivative of the mean loss.", "quantifier": "all depths, widths, parameters, activations, losses, data sets, block sizes, numbers of epochs or rounds, random generators, hyper-parameters", "why_tests_cant": "every parameter of every network over any number of steps, with per-parameter memory in tables keyed by address", "anchors": ["include/Trixy/Neuro/Training/UnifiedNet.hpp: batch, mini_batch, stochastic, updating", "include/Trixy/Neuro/Network/Layer/FullyConnected.hpp: update", "include/Trixy/Neuro/Functional/Optimizer/Momentum.hpp: update", "include/Trixy/Neuro/Functional/Optimizer/Nestorov.hpp: update", "include/Trixy/Neuro/Functional/Optimizer/AdaGrad.hpp: update", "include/Trixy/Neuro/Functional/Optimizer/RMSProp.hpp: update", "include/Trixy/Neuro/Functional/Optimizer/Adam.hpp: update"]}
{"id": "C115", "title": "Whatever the optimizer, training can only settle where the loss is stationary", "statement": "Training a network of library layers (MSE or LC) with batch() and a new Momentum, Nestorov, AdaGrad, RMSProp or Adam optimizer: if the parameters after N epochs converge as N grows, and no activation sits on a kink at the limit, all partial derivatives of the mean loss are zero at the limit. With StoGradDescent (weight decay) they are zero for the mean loss plus decay/2 times the sum of squared parameters.", "quantifier": "all depths, widths, parameters, element-wise activation classes except GELU, data sets, non-zero learning rates, all momentum coefficients (Nesterov: non-negative), decay rates in [0,1)", "why_tests_cant": "a statement about the limit of infinitely many epochs for every network, data set and optimizer", "anchors": ["include/Trixy/Neuro/Training/UnifiedNet.hpp: batch", "include/Trixy/Neuro/Functional/Optimizer/Momentum.hpp: update", "include/Trixy/Neuro/Functional/Optimizer/Nestorov.hpp: update", "include/Trixy/Neuro/Functional/Optimizer/AdaGrad.hpp: update", "include/Trixy/Neuro/Functional/Optimizer/RMSProp.hpp: update", "include/Trixy/Neuro/Functional/Optimizer/Adam.hpp: update", "include/Trixy/Neuro/Functional/Optimizer/StoGradDescent.hpp: update"]}
{"id": "C116", "title": "Linear models trained by gradient descent reach the optimum", "statement": "A single FullyConnected layer trained through its own interface (reset; forward, loss.df, backward, accumulate for each sample; update with GradDescent and 1/size), with Identity and MSE or LC, or with SoftMax and NLL or CCE, and a learning rate of at most 1 / mean(1+|x|^2): for every sequence of batches the sum of the losses after each step exceeds that of any fixed parameters by at most |start - parameters|^2 / (2 lr); when every batch is the whole data set, the mean loss never increases and after N steps is within |start - parameters|^2 / (2 lr N) of that of any parameters; separable classes are all predicted correctly from some step on; and the parameters of one Identity neuron with MSE converge to the weights LinearRegression computes. Keeping one optimizer object for the whole run makes no difference: it keeps its rate.", "quantifier": "all widths, parameters, batches and batch sequences, learning rates up to the bound, numbers of steps, comparison parameters", "why_tests_cant": "rates, limits and optimality over all data sets and all numbers of steps", "anchors": ["include/Trixy/Neuro/Network/Layer/FullyConnected.hpp: forward, backward, reset, accumulate, update", "include/Trixy/Neuro/Functional/Function/Loss.hpp: mean_squared_error, logcosh, negative_log_likelihood, categorical_cross_entropy", "include/Trixy/Neuro/Functional/Function/Activation.hpp: softmax", "include/Trixy/Neuro/Functional/Optimizer/GradDescent.hpp: update", "include/Trixy/Neuro/Training/LinearRegression.hpp: train"]}
{"id": "C117", "title": "Reported losses bound reported error rates", "statement": "For any network and data set: the full and global accuracies never fall when the range grows; full(r) is at most global(r2) for r < r2, and with one class per target at most normal() for r < 1/2; 1 - full(r) is at most 2 MSE / r^2 and at most MAE / r, 1 - global(r) at most 2 MSE / (m r^2) and MAE / (m r), where MSE and MAE are the values Checker reports on the same data; with predictions that are probabilities (every network ending in SoftMax) the error rate 1 - normal() is at most NLL / log 2, with the corresponding bound for CCE; and a SoftMax layer trained on separable classes (C116) ends with accuracy 1.", "quantifier": "all networks with a feedforward that predicts, data sets, ranges", "why_tests_cant": "inequalities between reports for every network and data set", "anchors": ["include/Trixy/Neuro/Checker/Accuracy.hpp: normal, full, global", "include/Trixy/Neuro/Checker/Core.hpp: loss", "include/Trixy/Neuro/Functional/Function/Loss.hpp"]}
{"id": "C118", "title": "Training a classifier follows the gradient of its loss and settles only where it vanishes", "statement": "For every stack of fully connected layers ending in SoftMax, trained by batch() with NLL (one class per target) or CCE (targets summing to 1): whichever optimizer is used, every parameter is moved by the rule of the optimizer applied to the true partial derivative of the mean loss (for CCE the cross entropy without the 1e-9); if the parameters converge as the number of epochs grows, all partial derivatives are zero at the limit (for StoGradDescent those of the loss with the weight-decay penalty); with gradient descent an epoch that changes nothing means a stationary point, at a stationary point no number of epochs changes anything, and elsewhere one epoch with a small learning rate strictly lowers the mean loss, which for NLL is the loss the library reports.", "quantifier": "all networks ending in SoftMax with element-wise hidden activations other than GELU (away from kinks), data sets, targets, optimizers and hyper-parameters, numbers of epochs", "why_tests_cant": "limits over infinitely many epochs, every network, data set and optimizer", "anchors": ["include/Trixy/Neuro/Training/UnifiedNet.hpp: batch, backprop", "include/Trixy/Neuro/Functional/Function/Activation.hpp: SoftMax", "include/Trixy/Neuro/Functional/Function/Loss.hpp: NLL, CCE", "include/Trixy/Neuro/Functional/Optimizer"]}
{"id": "C119", "title": "With growing precision, training in floating point converges to training in exact arithmetic", "statement": "Take any network of fully connected layers with library activations (SoftMax included), any library loss class but MSLE, data, learning rate and number of epochs or rounds, once over the real numbers and once over each of a sequence of number types whose relative error and underflow threshold tend to zero and whose range tends to everything (operations and <cmath> functions accurate to that error, comparisons exact). If initial parameters, data and learning rate tend to the exact ones and the exact run never evaluates an activation derivative (or the MAE derivative) on a kink, then batch(), mini_batch() and stochastic() end properly in every type, every bias and weight they leave tends to the exact one, predictions for converging inputs tend to the exact predictions, and from some precision on the accuracy check sees the class the exact network predicts, whenever that class is unique.", "quantifier": "all networks, data sets, learning rates, numbers of epochs, batch sizes, random number generators, all sequences of number types of growing precision", "why_tests_cant": "limit over precisions, for every network and data set; no test has exact arithmetic to compare with", "anchors": ["include/Trixy/Neuro/Training/UnifiedNet.hpp: batch, mini_batch, stochastic", "include/Trixy/Neuro/Functional/Function/ActivationLess.hpp", "include/Trixy/Neuro/Functional/Function/Activation.hpp: SoftMax", "include/Trixy/Neuro/Functional/Function/Loss.hpp", "include/Trixy/Neuro/Functional/Optimizer/GradDescent.hpp", "include/Trixy/Neuro/Checker/Accuracy.hpp: normal"]}
{"id": "C12", "title": "argmax/argmin return the first extreme index", "statement": "For a non-empty range argmax (argmin) returns an index in range whose element is not below (above) any element, and it is the least such index; max/min return that element. On an empty range the index functions return 0 and the value functions read outside the range.", "quantifier": "all ranges over a strict weak order", "why_tests_cant": "all lengths and orders of elements", "anchors": ["include/Trixy/Lique/Tool.hpp: search, argmin, argmax, min, max"]}
{"id": "C120", "title": "Weight decay forgets the start, finds the regularised optimum and limits the influence of a sample", "statement": "A single FullyConnected layer trained through its own interface with StoGradDescent(lr, decay), with Identity and MSE or LC, or with SoftMax and NLL or CCE, and lr * mean(1+|x|^2) <= 2 (1 - lr decay): (1) two layers with different initial parameters trained on the same sequence of batches come closer by the factor 1 - lr decay in every step; (2) trained on one data set, the parameters converge at that rate, from any initial parameters, to one and the same point, the unique minimum of mean loss + decay/2 |theta|^2, which exists; (3) for LC and NLL, if two data sets differ in one sample, then after any number of steps the parameters differ by at most 2 sqrt(c rho) / (decay * size), with c the bound on the squared gradient of the loss (m for LC, 2 for NLL) and rho = 1+|x|^2, and the weighted sums of any input by at most sqrt(rho) times that; (4) whatever is trained, parameters updated with gradients bounded by G stay within (1 - lr decay)^N |p| + (1 - (1 - lr decay)^N) G/decay.", "quantifier": "all data sets and sequences of batches, initial parameters, learning rates and decays within the bound, numbers of steps; (4) all sequences of gradients", "why_tests_cant": "limits, existence and uniqueness of a minimum, and bounds for every data set and every replaced sample", "anchors": ["include/Trixy/Neuro/Functional/Optimizer/StoGradDescent.hpp: StoGradDescent, update", "include/Trixy/Neuro/Network/Layer/FullyConnected.hpp: forward, backward, accumulate, reset, update", "include/Trixy/Neuro/Functional/Function/Loss.hpp"]}
{"id": "C121", "title": "Online learning: bounded regret and few wrong predictions on any stream", "statement": "A single FullyConnected layer predicts each sample of a stream before it is trained with it (forward, comparison as in Accuracy::normal, then one GradDescent step with that sample). With Identity and MSE or LC, or SoftMax and NLL or CCE, and lr (1+|x|^2) <= rho: (1) the losses of the predictions, each made before the sample was learnt, add up to at most 1/(1-rho) times the total loss of any fixed parameters eta plus |theta-eta|^2/(2 lr); (2) for the classifiers the number of wrong predictions M in N rounds satisfies (1-rho) log 2 M <= total loss of eta + |theta-eta|^2/(2 lr), for every eta; (3) if some linear model separates the samples with margin gamma, a new layer makes at most (m + (log N)^2 |eta|^2/(2 lr gamma^2)) / ((1-rho) log 2) wrong predictions in N rounds; (4) so its error rate tends to 0.", "quantifier": "all streams of samples (also chosen by an adversary), all comparison parameters, initial parameters, learning rates within the bound, numbers of rounds", "why_tests_cant": "the bound must hold for every stream, every number of rounds and every competitor in hindsight", "anchors": ["include/Trixy/Neuro/Network/Layer/FullyConnected.hpp: forward, backward, accumulate, update", "include/Trixy/Neuro/Functional/Optimizer/GradDescent.hpp: update", "include/Trixy/Neuro/Checker/Accuracy.hpp: Guide::normal", "include/Trixy/Neuro/Functional/Function/Loss.hpp: MSE, LC, NLL, CCE"]}
{"id": "C122", "title": "Momentum and Nestorov reach the optimum of linear models", "statement": "A single FullyConnected layer trained through its own interface with Momentum(lr, mu) or Nestorov(lr, mu), 0 <= mu < 1, on one data set in every step, with Identity and MSE or LC, or with SoftMax and NLL or CCE; s = mean(1+|x|^2). (1) Momentum, lr s < 1 - mu: after N steps (1 - lr s/(1-mu)) times the excess of the mean loss over its minimum is at most ((1-mu)/(2 lr) |theta-eta|^2 + 2 mu/(1-mu) (initial excess)) / N, for every minimiser eta. (2) Nestorov, lr s <= 1 whatever mu: the excess is at most 4 ((1-mu)/(2 lr) |theta-eta|^2 + 2/(1-mu) (initial excess)) / N. (3) Momentum, lr s <= 2 (1-mu): mean loss + mu/(2 lr) |last step|^2 never increases. (4) Whether or not the minimum is attained, the mean loss falls below that of any parameters plus epsilon and stays there. (5) Classifiers learn every linearly separable data set: from some step on every training sample gets its class.", "quantifier": "all data sets, initial parameters, learning rates and momenta within the bounds, numbers of steps, competing parameters", "why_tests_cant": "rates for every data set and number of steps; momentum makes the loss non-monotone, so no finite observation shows convergence", "anchors": ["include/Trixy/Neuro/Functional/Optimizer/Momentum.hpp: update", "include/Trixy/Neuro/Functional/Optimizer/Nestorov.hpp: update", "include/Trixy/Neuro/Functional/Optimizer/Interface.hpp: get", "include/Trixy/Neuro/Network/Layer/FullyConnected.hpp: forward, backward, accumulate, reset, update", "include/Trixy/Neuro/Functional/Function/Loss.hpp: MSE, LC, NLL, CCE"]}
{"id": "C123", "title": "AdaGrad reaches the optimum of linear models with every learning rate", "statement": "A single FullyConnected layer trained through its own interface with AdaGrad(lr), any lr > 0, on one data set in every step, with Identity and MSE or LC, or with SoftMax and NLL or CCE: (1) for all parameters eta and epsilon > 0 the mean loss is from some number of steps on at most that of eta plus epsilon, whether or not a minimum is attained; (2) the squares of the lengths of all steps have a finite sum; (3) classifiers learn every linearly separable data set: from some step on every training sample gets its class. No bound on the learning rate is needed, unlike for GradDescent, Momentum and Nestorov.", "quantifier": "all data sets, initial parameters, positive learning rates, numbers of steps, competing parameters", "why_tests_cant": "convergence is about all numbers of steps; with large rates the loss first grows enormously, so no finite observation shows it", "anchors": ["include/Trixy/Neuro/Functional/Optimizer/AdaGrad.hpp: update", "include/Trixy/Neuro/Functional/Optimizer/Interface.hpp: get", "include/Trixy/Detail/FunctionDetail.hpp: invert_sqrt", "include/Trixy/Neuro/Network/Layer/FullyConnected.hpp: forward, backward, accumulate, reset, update", "include/Trixy/Neuro/Functional/Function/Loss.hpp: MSE, LC, NLL, CCE"]}
{"id": "C124", "title": "RMSProp with a constant learning rate reaches a band around the optimum and never settles in it", "statement": "A FullyConnected layer with Identity and MSE trained through its own interface with RMSProp(lr, beta), 0 <= beta < 1, lr > 0, on one sample with input 0 (the loss is then a plain quadratic in the biases): (1) from some step on every output is within lr / sqrt(1 - beta) of its target; (2) but for countably many initial values every output comes back, again and again, to every distance below sqrt(lr^2/4 - 1e-9) from its target; (3) so for lr^2 > 4e-9 the mean loss, whose minimum is 0, exceeds lr^2/8 - 1e-9 again and again: unlike GradDescent, Momentum, Nestorov and AdaGrad (C116, C122, C123) RMSProp needs a falling learning rate.", "quantifier": "all learning rates and betas, all targets, sizes and all but countably many initial biases, all numbers of steps", "why_tests_cant": "about the whole infinite run: a test cannot distinguish slow convergence from none, nor cover all initial values", "anchors": ["include/Trixy/Neuro/Functional/Optimizer/RMSProp.hpp: update", "include/Trixy/Neuro/Functional/Optimizer/Interface.hpp: get", "include/Trixy/Detail/FunctionDetail.hpp: invert_sqrt", "include/Trixy/Neuro/Network/Layer/FullyConnected.hpp: forward, backward, accumulate, reset, update", "include/Trixy/Neuro/Functional/Function/Loss.hpp: MSE"]}
{"id": "C125", "title": "With every optimizer, training moves the parameters of convolution and dense stacks by the optimizer's rule", "statement": "batch(), mini_batch() and stochastic() on a stack of convolution and dense layers move every parameter, once per step, by the published rule of the optimizer in use (gradient descent, weight decay, momentum, Nesterov, AdaGrad, RMSProp, Adam), applied to the mean gradient of the step's samples.", "quantifier": "every stack of convolution and dense layers of any shapes and parameters, every optimizer class and its settings, every data set, every number of epochs, block size and sequence of drawn samples", "why_tests_cant": "It is an exact statement about all stacks, data sets, optimizers and training lengths; the deviation of the code starts at the second step and looks like ordinary training.", "anchors": ["include/Trixy/Neuro/Network/Layer/Convolutional.hpp: backward, update", "include/Trixy/Neuro/Network/Layer/FullyConnected.hpp: update, accumulate", "include/Trixy/Neuro/Training/UnifiedNet.hpp: batch, mini_batch, stochastic", "include/Trixy/Neuro/Functional/Optimizer/RMSProp.hpp: update"]}
{"id": "C126", "title": "What networks can represent, and what they cannot", "statement": "A network FullyConnected(n, N, ReLU), FullyConnected(N, m, Identity) can return any prescribed outputs on any N different inputs, exactly, so that Training::loss reports 0 for them; with SoftMax outputs it can give N different points any classes with any confidence below 1; with enough hidden units it can be within any distance of any continuous function on a box, for all inputs of the box. Without a non-linear activation no number of layers helps: the predictions for inputs with equal sums have equal sums, and Identity layers followed by one layer with any monotone activation never separate exclusive or, while two ReLU units compute it.", "quantifier": "all numbers of inputs, outputs and samples, all sample sets, all continuous functions, all accuracies; for the limits all depths, widths and parameters", "why_tests_cant": "a test can train one network on one data set; it cannot show that parameters exist for every data set or function, nor that none exist", "anchors": ["include/Trixy/Neuro/Network/UnifiedNet.hpp: feedforward", "include/Trixy/Neuro/Network/Layer/FullyConnected.hpp: forward", "include/Trixy/Neuro/Functional/Function/Activation.hpp: ReLU, Identity, SoftMax", "include/Trixy/Neuro/Training/UnifiedNet.hpp: loss"]}
{"id": "C127", "title": "Where training a linear model ends: the optimal parameters nearest to the initial ones, or nowhere", "statement": "A FullyConnected layer trained through its interface with GradDescent (MSE or LC with Identity, NLL or CCE with SoftMax) never changes its parameters in a direction no sample notices; in particular an input that is 0 in every sample keeps its weights. With the whole data set in every step and lr * mean(1 + |x|^2) <= 1, if optimal parameters exist all parameters converge, to the optimal ones nearest to the initial ones. For regression, and for CCE with positive targets, they always exist; a new layer converges to the optimal parameters with the smallest sum of squares. For linearly separable classes none exist and the parameters leave every ball.", "quantifier": "all numbers of inputs and outputs, all data sets, all initial parameters, all admissible learning rates, all numbers of steps; for the first part all sequences of batches", "why_tests_cant": "limits of infinite runs, and a statement about all optimal parameters; a test sees finitely many steps of one data set", "anchors": ["include/Trixy/Neuro/Network/Layer/FullyConnected.hpp: forward, backward, reset, accumulate, update", "include/Trixy/Neuro/Functional/Function/Loss.hpp: MSE, LC, NLL, CCE", "include/Trixy/Neuro/Functional/Function/Activation.hpp: Identity, SoftMax", "include/Trixy/Neuro/Functional/Optimizer/GradDescent.hpp: update"]}
{"id": "C128", "title": "Which learning rates are safe for a linear model, and balance of the trained predictions", "statement": "A FullyConnected layer trained through its interface with GradDescent on the whole data set (MSE or LC with Identity, NLL or CCE with SoftMax): with lr * mean(1 + |x|^2) < 2 every step that changes the parameters lowers the mean loss, by a fixed multiple of the squared length of the step, and in the limit predictions and targets balance: at every output the gaps sum to 0 over the samples, also when weighted with any input. So the mean prediction tends to the mean target, and the mean predicted probability of a class tends to its frequency, whether or not the parameters converge. The bound 2 is exact: for one sample and MSE the error is multiplied by 1 - lr (1 + |x|^2) in every step, vanishes below the bound, keeps its size at it and grows without limit above it.", "quantifier": "all numbers of inputs and outputs, all data sets, all initial parameters, all learning rates, all numbers of steps", "why_tests_cant": "limits of infinite runs for all data sets and learning rates; a test sees finitely many steps with one rate", "anchors": ["include/Trixy/Neuro/Network/Layer/FullyConnected.hpp: forward, backward, reset, accumulate, update", "include/Trixy/Neuro/Functional/Function/Loss.hpp: MSE, LC, NLL, CCE", "include/Trixy/Neuro/Functional/Function/Activation.hpp: Identity, SoftMax", "include/Trixy/Neuro/Functional/Optimizer/GradDescent.hpp: update"]}
{"id": "C129", "title": "Mini-batches in any order: exactly solvable problems are solved, and the total loss of a stream is bounded", "statement": "A FullyConnected layer trained through its interface with GradDescent at a fixed rate with lr * mean(1 + |x|^2) <= 1 on every batch (MSE or LC with Identity, NLL or CCE with SoftMax): a batch whose targets some parameters predict never increases the distance to them, whatever the stream of batches. For regression the losses of such a stream, each measured before its step, sum to at most |start - solution|^2 / (2 lr), however long it runs. If a data set can be fitted exactly, mini-batches of bounded size in any order, every sample at least once in any K steps, make all parameters converge to the exact ones nearest to the initial ones.", "quantifier": "all numbers of inputs and outputs, all data sets, streams and orders of batches, all initial parameters, all admissible rates, all numbers of steps", "why_tests_cant": "infinite streams and all orders of batches; a test sees one order and finitely many steps", "anchors": ["include/Trixy/Neuro/Network/Layer/FullyConnected.hpp: forward, backward, reset, accumulate, update", "include/Trixy/Neuro/Functional/Function/Loss.hpp: MSE, LC, NLL, CCE", "include/Trixy/Neuro/Functional/Function/Activation.hpp: Identity, SoftMax", "include/Trixy/Neuro/Functional/Optimizer/GradDescent.hpp: update"]}
{"id": "C13", "title": "accumulate, mean and standard deviation match their definitions", "statement": "accumulate adds the elements left to right to the initial value; mean is their arithmetic mean; std is the square root of the mean squared deviation (divisor n-1 when unbiased); std is 0 iff all elements are equal, and mean lies between min and max.", "quantifier": "all non-empty ranges of reals", "why_tests_cant": "all lengths and values", "anchors": ["include/Trixy/Lique/Tool.hpp: accumulate, mean, std"]}
{"id": "C130", "title": "Mini-batches in a fixed cycle: linear regression forgets its start and settles in a cycle, not at the optimum", "statement": "A FullyConnected layer with Identity trained through its interface with MSE and GradDescent at a fixed rate with lr * mean(1 + |x|^2) <= 1 on every batch, on data that need not be fittable. In any order of mini-batches of bounded size, every sample at least once in any K steps, two layers started from different parameters give, in the limit, the same predictions for all samples, and the difference of their parameters converges. When the batches come in a fixed cycle (the same order in every epoch), all parameters converge in every phase of the cycle; the limits are themselves a training run that returns to its parameters after each cycle, and over one cycle the mean residuals, and their products with every input, cancel. The approach is exponential: every cycle multiplies the squared distance to the limits by at most q < 1, where q depends on the batches and the rate only and not on the start. In general the limits are not optimal: for two contradicting targets 0 and 1 the predictions end up alternating between 1/(2-lr) and (1-lr)/(2-lr), and the optimum 1/2 lies strictly between.", "quantifier": "all numbers of inputs and outputs, all data, batches, cycle lengths and orders, all initial parameters, all admissible rates, all numbers of steps", "why_tests_cant": "limits of infinite runs, for all data and all orders of batches; a test sees finitely many steps of one of them", "anchors": ["include/Trixy/Neuro/Network/Layer/FullyConnected.hpp: forward, backward, reset, accumulate, update", "include/Trixy/Neuro/Functional/Function/Loss.hpp: MSE", "include/Trixy/Neuro/Functional/Function/Activation.hpp: Identity", "include/Trixy/Neuro/Functional/Optimizer/GradDescent.hpp: update"]}
{"id": "C131", "title": "Mini-batch training ends within a factor of the best loss, and the factor goes to 1 with the learning rate", "statement": "A FullyConnected layer trained through its interface with GradDescent at a fixed rate (MSE or LC with Identity, NLL or CCE with SoftMax), in passes of K mini-batches, where lr * mean(1 + |x|^2) <= c <= 1 for every batch; nothing is assumed about the data being fittable. For any stream of batches and any fixed parameters, (1 - c) times the sum over the passes of the losses that the parameters held at the start of a pass have on its batches is at most (1 + c K)^2 times (the same sum for the fixed parameters + |start - fixed|^2 / (2 lr)), for any number of passes. When the batches come again in every pass, one of the first E passes starts with parameters whose total loss obeys this bound with the distance term divided by E. For MSE in a fixed order, the limits in every phase of the cycle have a total loss of at most (1 + c K)^2 / (1 - c) times the best possible one.", "quantifier": "all numbers of inputs and outputs, all data, streams, orders and lengths of passes, all initial and comparison parameters, all admissible rates, all numbers of passes", "why_tests_cant": "a bound for all data, orders and comparison parameters and for limits of infinite runs; a test sees single values of finitely many steps", "anchors": ["include/Trixy/Neuro/Network/Layer/FullyConnected.hpp: forward, backward, reset, accumulate, update", "include/Trixy/Neuro/Functional/Function/Loss.hpp: MSE, LC, NLL, CCE", "include/Trixy/Neuro/Functional/Function/Activation.hpp: Identity, SoftMax", "include/Trixy/Neuro/Functional/Optimizer/GradDescent.hpp: update"]}
{"id": "C132", "title": "With falling learning rates, shuffled mini-batch training reaches the optimum", "statement": "A FullyConnected layer trained through its interface with GradDescent (MSE or LC with Identity, NLL or CCE with SoftMax), in epochs of K mini-batches, in an order that may be a different one in every epoch, where the client sets learning_rate anew before each epoch. If the rates have an infinite sum, their squares a finite one, and rate * mean(1 + |x|^2) * (4 K + 2) <= 1 for every batch, then, provided the total loss has optimal parameters at all, the parameters converge, from every start and for every choice of the orders, to parameters whose total loss is optimal. (With a fixed rate they need not: C130.) One optimizer object whose rate is set before each epoch gives the same run. For any such small rates, with no condition on their sums, one of the first E epochs starts with an excess loss of at most (|start - best|^2 + 2 (2 K + 1) s G sum rate^2) / sum rate, G the best total loss and s a bound of the mean(1 + |x|^2). With the same conditions on the rates, but whether or not optimal parameters exist, the total loss comes, again and again, within any epsilon of, or below, that of any given parameters.", "quantifier": "all numbers of inputs and outputs, all data, all numbers of batches, all sequences of orders, all admissible sequences of rates, all initial parameters", "why_tests_cant": "the limit of an infinite run, for all data, orders and rates; a test sees finitely many epochs of one order", "anchors": ["include/Trixy/Neuro/Network/Layer/FullyConnected.hpp: forward, backward, reset, accumulate, update", "include/Trixy/Neuro/Functional/Function/Loss.hpp: MSE, LC, NLL, CCE", "include/Trixy/Neuro/Functional/Function/Activation.hpp: Identity, SoftMax", "include/Trixy/Neuro/Functional/Optimizer/GradDescent.hpp: learning_rate, update"]}
{"id": "C14", "title": "Matrix arg-extreme search along an axis", "statement": "search(matrix, Axis::X, compare) returns for every column the first row index of the extreme element. search(matrix, Axis::Y, compare) does the same for rows. (The Axis::Y half is violated for every non-empty matrix: it reads an uninitialised index.)", "quantifier": "all matrices", "why_tests_cant": "all shapes and contents", "anchors": ["include/Trixy/Lique/Tool.hpp: search(matrix, axis, compare)"]}
{"id": "C15", "title": "concat is list concatenation", "statement": "concat(a, b, ...) returns a range whose size is the sum of the sizes and whose elements are those of a, then b, and so on, without reading or writing outside any of them.", "quantifier": "any number of ranges of any sizes", "why_tests_cant": "all arities and sizes", "anchors": ["include/Trixy/Lique/Tool.hpp: concat, sum, detail::concat"]}
{"id": "C16", "title": "multinomial samples by inverse CDF and never returns an impossible outcome", "statement": "For a non-empty range of non-negative weights and a draw r, multinomial returns the first index whose cumulative weight exceeds r, or the first maximum if none does; the result is always in range, and an outcome of weight 0 is never returned unless all weights are 0.", "quantifier": "all weight vectors, all draws", "why_tests_cant": "all draws and weights", "anchors": ["include/Trixy/Lique/Tool.hpp: multinomial"]}
{"id": "C17", "title": "block_loop visits exactly the block", "statement": "block_loop(A, B, W, f), where A and B point to the first and last cell of a rows x w sub-block of a row-major matrix of width W, applies f once to every cell of the block in row-major order. (Holds exactly for 2 <= w < W: with w = W nothing is visited, with w = 1 the last row is skipped.)", "quantifier": "all block positions and sizes", "why_tests_cant": "all geometries", "anchors": ["include/Trixy/Lique/Detail/FunctionDetail.hpp: block_for_each", "include/Trixy/Lique/Tool.hpp: block_loop"]}
{"id": "C18", "title": "Vector-matrix and matrix-vector products", "statement": "dot(row, M) and dot(M, col) compute, for every output index, the sum over the inner index in ascending order of the products, overwriting whatever the result held, for every element arithmetic; over a commutative semiring this is the matrix product.", "quantifier": "all sizes, contents and previous result contents", "why_tests_cant": "all sizes and contents", "anchors": ["include/Trixy/Lique/Linear.hpp: dot"]}
{"id": "C19", "title": "Matrix product", "statement": "The value-returning dot(A,B) is the matrix product; the three-argument dot(R,A,B) adds the product to the previous contents of R. All accesses stay in bounds.", "quantifier": "all conforming sizes and contents", "why_tests_cant": "all sizes", "anchors": ["include/Trixy/Lique/Linear.hpp: dot(Matrix1&, const Matrix2&, const Matrix3&)", "include/Trixy/Lique/Linear.hpp: dot(lhs, rhs)"]}
{"id": "C20", "title": "Outer product and transpose", "statement": "tensordot(c, r) has element (i,j) equal to c(i)*r(j); transpose(M) has element (j,i) equal to M(i,j); transposing twice is the identity, and transpose(A.B) = transpose(B).transpose(A).", "quantifier": "all sizes and contents", "why_tests_cant": "all sizes", "anchors": ["include/Trixy/Lique/Linear.hpp: tensordot, transpose"]}
{"id": "C21", "title": "inverse computes the inverse", "statement": "For a square matrix over an ordered field: if the matrix is invertible, inverse never divides by zero, leaves the identity in its argument and returns R with R.M = M.R = 1; if the matrix is singular, it divides by zero.", "quantifier": "all square matrices of any size", "why_tests_cant": "all matrices, including those needing row swaps at every step", "anchors": ["include/Trixy/Lique/Linear.hpp: inverse"]}
{"id": "C22", "title": "Container refines a list", "statement": "Every history of emplace_back, pop_back (non-empty), resize, reserve, copy/move assignment, indexing, front/back and iteration on containers whose construction is by default/size/list/move leaves size(), empty() and the element sequence exactly as the same history on an abstract list, performs no access outside its allocation, and keeps size() <= capacity() <= the allocated length.", "quantifier": "all histories on any number of containers", "why_tests_cant": "all histories", "anchors": ["include/Trixy/Container/Container.hpp: Container"]}
{"id": "C23", "title": "A copy-constructed Container is safe to extend", "statement": "A container copy constructed from another behaves like its source under all later operations. (Violated whenever the source has spare capacity: the copy claims capacity it did not allocate, and emplace_back writes past the allocation. Holds exactly when size() = capacity().)", "quantifier": "all sources and later histories", "why_tests_cant": "depends on spare capacity of the source", "anchors": ["include/Trixy/Container/Container.hpp: Container(const Container&)"]}
{"id": "C24", "title": "Container element lifetimes balance", "statement": "In every history each constructed element is destroyed exactly once: no element is destroyed twice, none is read after destruction, and after the container is destroyed no live element remains.", "quantifier": "all histories", "why_tests_cant": "all histories", "anchors": ["include/Trixy/Container/Container.hpp: destroy, reserve, resize, pop_back"]}
{"id": "C25", "title": "emplace_back is amortised O(1)", "statement": "Starting from an empty container, n calls of emplace_back perform fewer than 2n element moves in total and never leave capacity() above 2n+1.", "quantifier": "all n", "why_tests_cant": "asymptotic claim", "anchors": ["include/Trixy/Container/Container.hpp: emplace_back, reserve"]}
{"id": "C26", "title": "FullyConnected.forward is activation(x.W + b) and history-free", "statement": "After forward(x), value() is the activation of the affine image x.W + b (sum in ascending index order, for every element arithmetic), whatever was computed before; parameters, gradients and the accumulated flag are unchanged.", "quantifier": "all layer sizes, parameters, inputs, earlier histories", "why_tests_cant": "all histories", "anchors": ["include/Trixy/Neuro/Network/Layer/FullyConnected.hpp: forward"]}
{"id": "C27", "title": "FullyConnected.backward computes the vector-Jacobian product", "statement": "After forward(x) and backward(x, d), the bias gradient is d*F'(S), the weight gradient is the outer product of x with it, and delta() is W times it; these are the partial derivatives of sum(d*value) with respect to b, W and x for every differentiable element-wise activation. backward(.., full=false) leaves delta() unchanged.", "quantifier": "all sizes, parameters, inputs, deltas and element-wise activations", "why_tests_cant": "all values; the gradient is a limit", "anchors": ["include/Trixy/Neuro/Network/Layer/FullyConnected.hpp: backward"]}
{"id": "C28", "title": "FullyConnected gradient accumulation", "statement": "After reset() and any number of (forward, backward, accumulate) rounds, update(opt, alpha) hands the optimizer alpha times the sum of the per-round gradients; after reset() without accumulate it hands alpha times the latest gradient.", "quantifier": "all numbers of rounds and gradients", "why_tests_cant": "all histories", "anchors": ["include/Trixy/Neuro/Network/Layer/FullyConnected.hpp: reset, accumulate, update"]}
{"id": "C29", "title": "stochastic training uses the current gradient", "statement": "stochastic() updates the parameters with the gradient of the sample just processed. (Violated for a network that was trained with batch()/mini_batch() before: the accumulated flag is still set, so every stochastic step applies the stale accumulated gradient and ignores the sample.)", "quantifier": "all training histories", "why_tests_cant": "depends on the history of training calls", "anchors": ["include/Trixy/Neuro/Training/UnifiedNet.hpp: stochastic", "include/Trixy/Neuro/Network/Layer/FullyConnected.hpp: update"]}
{"id": "C30", "title": "Convolution output geometry", "statement": "For input h x w, filter fh x fw, padding p and strides sv, sh >= 1 with fh <= h+2p and fw <= w+2p, osize() is (filters, (h+2p-fh)/sv+1, (w+2p-fw)/sh+1), computed correctly by size_t arithmetic even when fh > h; the last window ends inside the padded input and one more stride would not fit.", "quantifier": "all geometries", "why_tests_cant": "all sizes, wrap-around", "anchors": ["include/Trixy/Neuro/Network/Layer/Convolutional.hpp: Layer(shape_type,...)"]}
{"id": "C31", "title": "Convolution forward is the zero-padded strided cross-correlation", "statement": "value()(f,y,x) = b(f) + sum over (i,j,c) of input padded with zeros at (c, sv*y+i-p, sh*x+j-p) times W_f(c,i,j). The unsigned wrap-around test skips exactly the positions that lie in the padding; no access leaves the input.", "quantifier": "all geometries that fit size_t, all inputs and filters", "why_tests_cant": "all geometries; correctness rests on wrap-around", "anchors": ["include/Trixy/Neuro/Network/Layer/Convolutional.hpp: forward"]}
{"id": "C32", "title": "Convolution backward is the adjoint of forward", "statement": "After backward(input, d): the filter and bias gradients increase by the derivative of <d, value()> with respect to filters and bias, and delta() is its derivative with respect to the input; in particular <d, forward_linear(v)> = <delta, v> for every v.", "quantifier": "all geometries, strides and paddings, all inputs, filters and deltas", "why_tests_cant": "all geometries; strides and paddings interact through wrap-around", "anchors": ["include/Trixy/Neuro/Network/Layer/Convolutional.hpp: backward"]}
{"id": "C33", "title": "Convolution parameter updates use only the gradients since the last update", "statement": "update(opt, alpha) applies alpha times the sum of the gradients of the backward calls since the previous update. (Violated: nothing ever clears the gradients; with GradDescent the k-th update also re-applies earlier gradients scaled by (lr*alpha) per intervening update.)", "quantifier": "all histories of backward and update", "why_tests_cant": "visible only over several updates", "anchors": ["include/Trixy/Neuro/Network/Layer/Convolutional.hpp: update, backward"]}
{"id": "C34", "title": "Inference max-pooling returns the window maxima", "statement": "If the strides divide the input height and width, after forward(x) value()(d,i,j) is the activation of the maximum of the corresponding stride-sized window, and no access leaves the input or output. If a stride does not divide the size, forward reads outside the window's row range.", "quantifier": "all geometries and inputs", "why_tests_cant": "all sizes", "anchors": ["include/Trixy/Neuro/Network/Layer/MaxPooling.hpp: Raw forward"]}
{"id": "C35", "title": "Training max-pooling forward equals inference max-pooling forward", "statement": "The training layer's value() after forward(x) is the activation of the window maxima. (Violated: the activation is applied to the back-propagation buffer, so value() never depends on x; on a fresh layer with Identity it is all zeros.)", "quantifier": "all geometries and inputs", "why_tests_cant": "universal over inputs", "anchors": ["include/Trixy/Neuro/Network/Layer/MaxPooling.hpp: Train forward"]}
{"id": "C36", "title": "Max-pooling backward routes each delta to the first maximum", "statement": "With Identity activation and strides dividing the sizes, after forward(x) and backward(x,d): delta() is d(window) at the first maximal cell of each window and 0 elsewhere, so each window's delta sums to d(window).", "quantifier": "all geometries, inputs and deltas", "why_tests_cant": "all inputs incl. ties", "anchors": ["include/Trixy/Neuro/Network/Layer/MaxPooling.hpp: forward, backward"]}
{"id": "C37", "title": "feedforward is the composition of the layers and is history-free", "statement": "feedforward(x) returns the output of the last layer applied to the output of the previous one, ..., applied to x; the result depends only on x and the parameters, so repeated or interleaved calls agree; parameters are not changed. With no layers it is undefined.", "quantifier": "all networks of history-free layers, all samples, all earlier calls", "why_tests_cant": "all histories", "anchors": ["include/Trixy/Neuro/Network/UnifiedNet.hpp: feedforward"]}
{"id": "C38", "title": "backprop computes the gradient of the loss for the whole network", "statement": "For a network of at least two FullyConnected layers with differentiable element-wise activations and a differentiable loss whose df is its derivative, after feedforward(x); backprop(x,t) every layer's weight and bias gradients are the partial derivatives of loss(t, net(x)). With a single layer backprop accesses layer -1.", "quantifier": "all depths >= 2, layer sizes, parameters, samples and targets", "why_tests_cant": "all depths; gradients are limits", "anchors": ["include/Trixy/Neuro/Training/UnifiedNet.hpp: backprop"]}
{"id": "C39", "title": "batch training performs averaged gradient descent", "statement": "One epoch of batch() with GradDescent on fully connected layers replaces each parameter by parameter - lr * (1/n) * sum of the n sample gradients, all evaluated at the parameters at the start of the epoch; each sample is visited exactly once per epoch in order.", "quantifier": "all data sets, epochs, networks", "why_tests_cant": "all sizes and epochs", "anchors": ["include/Trixy/Neuro/Training/UnifiedNet.hpp: batch", "include/Trixy/Neuro/Functional/Optimizer/GradDescent.hpp: update"]}
{"id": "C40", "title": "mini_batch visits floor(n/m) full mini-batches and drops the tail", "statement": "Every epoch of mini_batch(m) with m >= 1 processes samples 0..floor(n/m)*m-1 once each in order, updates exactly floor(n/m) times, each time after a reset and exactly m samples, never reads past the data, and ignores the remaining n mod m samples; m = 0 divides by zero.", "quantifier": "all n, m, epochs", "why_tests_cant": "all n, m", "anchors": ["include/Trixy/Neuro/Training/UnifiedNet.hpp: mini_batch"]}
{"id": "C41", "title": "stochastic only picks valid samples", "statement": "stochastic() performs exactly the requested number of (forward, backward, update) rounds and each sample index is generator() mod n, hence valid, for every generator; n = 0 divides by zero.", "quantifier": "all generators, counts, data sizes", "why_tests_cant": "all generator streams", "anchors": ["include/Trixy/Neuro/Training/UnifiedNet.hpp: stochastic"]}
{"id": "C42", "title": "init draws consecutive generator values for all parameters", "statement": "net.init(g) fills biases and weights, layer by layer, with consecutive values drawn from g. (Violated for functors that keep their state by value: the functor is copied for every tensor, so every tensor starts again with the same values; holds for functors that reference their state.)", "quantifier": "all networks and generators", "why_tests_cant": "all networks; depends on how the functor holds its state", "anchors": ["include/Trixy/Neuro/Network/UnifiedNet.hpp: init", "include/Trixy/Neuro/Network/Layer/FullyConnected.hpp: init", "include/Trixy/Lique/TensorBase.hpp: fill(Generator)"]}
{"id": "C43", "title": "The network owns and deletes each added layer exactly once", "statement": "Destroying a network built by add() of distinct layers deletes each of them exactly once; connect() and loss() delete the object they replace, and each activation/loss handed over is deleted exactly once in every history. Adding the same layer twice, or copying a network, leads to a double delete.", "quantifier": "all histories of add/connect/loss/destroy", "why_tests_cant": "all histories", "anchors": ["include/Trixy/Neuro/Network/UnifiedNet.hpp: ~TrixyNet, add", "include/Trixy/Neuro/Network/Layer/FullyConnected.hpp: connect, ~Layer", "include/Trixy/Neuro/Training/UnifiedNet.hpp: loss, ~Training"]}
{"id": "C44", "title": "GradDescent and StoGradDescent step", "statement": "update(p,g) replaces p by p - lr*g (StoGradDescent: (1 - lr0*decay)*p - lr*g) element-wise and g by lr*g; there is no hidden state besides the learning rate.", "quantifier": "all sizes and values, all histories", "why_tests_cant": "all histories", "anchors": ["include/Trixy/Neuro/Functional/Optimizer/GradDescent.hpp", "include/Trixy/Neuro/Functional/Optimizer/StoGradDescent.hpp"]}
{"id": "C45", "title": "Per-parameter optimizer state is isolated", "statement": "For Momentum, Nestorov, AdaGrad and RMSProp, in every interleaving of updates of distinct parameter tensors, each parameter evolves exactly as if it had its own optimizer; a parameter's first update starts from zero state.", "quantifier": "all interleavings of updates over any set of parameters", "why_tests_cant": "all interleavings", "anchors": ["include/Trixy/Neuro/Functional/Optimizer/Interface.hpp: get", "include/Trixy/Neuro/Functional/Optimizer/Momentum.hpp", "include/Trixy/Neuro/Functional/Optimizer/Nestorov.hpp", "include/Trixy/Neuro/Functional/Optimizer/AdaGrad.hpp", "include/Trixy/Neuro/Functional/Optimizer/RMSProp.hpp"]}
{"id": "C46", "title": "Momentum and Nestorov follow their recurrences", "statement": "After updates with gradients g1..gt the velocity is -lr * sum mu^(t-i) g_i, Momentum adds the velocity to the parameter at each step, and Nestorov adds mu*velocity - lr*g.", "quantifier": "all histories of gradients", "why_tests_cant": "closed form over all histories", "anchors": ["include/Trixy/Neuro/Functional/Optimizer/Momentum.hpp: update", "include/Trixy/Neuro/Functional/Optimizer/Nestorov.hpp: update"]}
{"id": "C47", "title": "AdaGrad and RMSProp scale by accumulated squares and never divide by zero", "statement": "AdaGrad's state is the sum of squared gradients and RMSProp's (with 0<=beta<=1) the exponentially weighted one; the argument of the inverse square root is always positive; each step is -lr*g/sqrt(1e-9+state), so AdaGrad's step is at most lr in absolute value.", "quantifier": "all gradient histories", "why_tests_cant": "all histories", "anchors": ["include/Trixy/Neuro/Functional/Optimizer/AdaGrad.hpp: update", "include/Trixy/Neuro/Functional/Optimizer/RMSProp.hpp: update", "include/Trixy/Detail/FunctionDetail.hpp: invert_sqrt"]}
{"id": "C48", "title": "Adam bias correction uses the number of steps of the parameter", "statement": "At the t-th update of a parameter, Adam uses 1-beta^t. (Violated when the optimizer serves more than one parameter tensor: t counts all update calls of all tensors; holds with a single parameter tensor. The moments themselves are per parameter and follow their recurrences.)", "quantifier": "all interleavings of updates", "why_tests_cant": "all interleavings", "anchors": ["include/Trixy/Neuro/Functional/Optimizer/Adam.hpp: update"]}
{"id": "C49", "title": "Activation derivatives are the derivatives", "statement": "For identity, relu, elu, lrelu, selu, sigmoid, tanh, softsign, softplus, swish, mod_relu, mod_tanh the *_derived function is the derivative of the function at every real point, except the kink points (0, and 1 for mod_relu) of the piecewise ones. (gelu_derived is not the derivative of gelu: its inner polynomial has the two coefficients swapped.)", "quantifier": "all real arguments", "why_tests_cant": "a limit statement over all reals", "anchors": ["include/Trixy/Neuro/Functional/Function/ActivationLess.hpp"]}
{"id": "C50", "title": "Activation ranges and monotonicity", "statement": "relu >= 0, sigmoid in (0,1), tanh and softsign in (-1,1), softplus > 0; identity, relu, elu, lrelu, selu, sigmoid, tanh, softsign, softplus, mod_relu and mod_tanh are monotone; relu is idempotent; sigmoid_derived_self(sigmoid x) = sigmoid_derived x.", "quantifier": "all reals", "why_tests_cant": "all reals", "anchors": ["include/Trixy/Neuro/Functional/Function/ActivationLess.hpp"]}
{"id": "C51", "title": "softmax is a stable probability distribution", "statement": "For every non-empty input softmax yields positive values summing to 1, preserves order, is invariant under adding a constant, equals unstable_softmax in real arithmetic, exponentiates only non-positive numbers and divides by a sum >= 1; it is correct when result and input are the same range; on an empty input it reads outside the range.", "quantifier": "all non-empty inputs of any length", "why_tests_cant": "all lengths and values", "anchors": ["include/Trixy/Neuro/Functional/Function/Activation.hpp: softmax, unstable_softmax"]}
{"id": "C52", "title": "Loss derivatives are the gradients", "statement": "For MSE, MSLE, LC the df vector is the gradient of f with respect to the prediction; categorical_cross_entropy_derived is the gradient of categorical_cross_entropy. (MAE.df has the opposite sign for every prediction different from the target; binary_cross_entropy_derived is not the derivative of binary_cross_entropy.)", "quantifier": "all targets and predictions in the domain", "why_tests_cant": "all reals", "anchors": ["include/Trixy/Neuro/Functional/Function/Loss.hpp"]}
{"id": "C53", "title": "Fused softmax/sigmoid loss gradients", "statement": "SoftMax with NLL (one-hot target): the delta after the output layer equals the gradient of the loss with respect to the pre-activation, p - t; the same for SoftMax with epsilon-free cross entropy and any target summing to 1. (Sigmoid with BCE is violated: the already fused gradient p - t is multiplied by sigmoid' once more.)", "quantifier": "all inputs, all targets of the stated kind", "why_tests_cant": "all reals; gradient", "anchors": ["include/Trixy/Neuro/Functional/Function/Loss.hpp: NLL, CCE, BCE", "include/Trixy/Neuro/Functional/Function/Activation.hpp: softmax_derived", "include/Trixy/Neuro/Network/Layer/FullyConnected.hpp: backward"]}
{"id": "C54", "title": "Losses are non-negative and vanish on perfect predictions", "statement": "MSE, MAE, MSLE (on predictions and targets > -1) and LC are >= 0, and are 0 iff prediction equals target.", "quantifier": "all inputs", "why_tests_cant": "all inputs", "anchors": ["include/Trixy/Neuro/Functional/Function/Loss.hpp"]}
{"id": "C55", "title": "Regression prediction", "statement": "Linear: feedforward(X) has row i equal to w0 + sum_j x_ij*w_(j+1) and agrees with feedforward_sample on every row; Polynomial: feedforward(v) has element i equal to sum_j w_j*v_i^j and agrees with the scalar feedforward.", "quantifier": "all sizes, data and weights", "why_tests_cant": "all sizes", "anchors": ["include/Trixy/Neuro/Regression/Linear.hpp", "include/Trixy/Neuro/Regression/Polynomial.hpp"]}
{"id": "C56", "title": "Regression training is least squares", "statement": "If the design matrix has full column rank, train(X,Y) succeeds and the weights satisfy the normal equations, hence minimise the sum of squared residuals over all weight vectors and are the unique minimiser; data generated exactly by a model of the class are fitted exactly.", "quantifier": "all data sets of full column rank", "why_tests_cant": "all data; optimality quantifies over all weight vectors", "anchors": ["include/Trixy/Neuro/Training/LinearRegression.hpp: train", "include/Trixy/Neuro/Training/PolynomialRegression.hpp: train"]}
{"id": "C57", "title": "Accuracy measures", "statement": "normal() is the fraction of samples whose prediction and target have the same first-maximum index, full() the fraction with all components within the range, global() the fraction of components strictly within it; each lies in [0,1] for non-empty data, and full counting a sample does not imply global counting all its components at the boundary.", "quantifier": "all data sets and networks", "why_tests_cant": "all data", "anchors": ["include/Trixy/Neuro/Checker/Accuracy.hpp", "include/Trixy/Neuro/Checker/Core.hpp: loss"]}
{"id": "C58", "title": "Serialization round-trip", "statement": "Saving a tensor, container, regression, FullyConnected or Convolutional layer or a network of them and loading the bytes into a default-constructed object gives an object with the same observable parameters: every later feedforward returns the same values, and no bytes are left over or missing.", "quantifier": "all objects and sizes, any surrounding stream", "why_tests_cant": "all object graphs", "anchors": ["include/Trixy/Lique/TensorBase.hpp: serialization", "include/Trixy/Container/Container.hpp: serialization", "include/Trixy/Neuro/Network/Layer/FullyConnected.hpp: serialization", "include/Trixy/Neuro/Network/UnifiedNet.hpp: serialization", "include/Trixy/Neuro/Serializer/Core.hpp"]}
{"id": "C59", "title": "A loaded MaxPooling layer can be used", "statement": "A MaxPooling layer loaded from an archive behaves like the saved one. (Violated: loading does not allocate the output tensor; the first forward on a non-empty output writes through a null pointer.)", "quantifier": "all geometries", "why_tests_cant": "all geometries", "anchors": ["include/Trixy/Neuro/Network/Layer/MaxPooling.hpp: serialization, prepare, forward"]}
{"id": "C60", "title": "Saving does not change observable contents", "statement": "Saving an object leaves size, elements and all predictions unchanged; it only lowers a container's capacity() to its size(), after which all further operations are still safe.", "quantifier": "all objects and later histories", "why_tests_cant": "all later histories", "anchors": ["include/Trixy/Container/Container.hpp: serialization"]}
{"id": "C61", "title": "Random numbers stay in the requested interval", "statement": "For a generator with values in 0..max, RandomIntegral(min,max) lies in [min,max] whenever max-min+1 is representable, reaches both ends if the generator covers the range, and RandomFloating(min,max) lies in [min,max] for min <= max.", "quantifier": "all generator values and intervals", "why_tests_cant": "all values", "anchors": ["include/Trixy/Random/Core.hpp"]}
{"id": "C62", "title": "Work splitting for parallel loops", "statement": "parallel_info<m>(size) with m >= 1 returns at least one thread, never more than ceil(size/m) or the hardware limit (2 if unknown), and blocks with threads*block <= size < threads*(block+1); if at least one thread's minimum fits, no block is empty.", "quantifier": "all sizes, thread limits and minimum block sizes", "why_tests_cant": "all sizes", "anchors": ["include/Trixy/Detail/FunctionDetail.hpp: parallel_info"]}
{"id": "C63", "title": "resize(other.shape()) gives the other's size", "statement": "After a.resize(...), b.resize(a.shape()) gives b the same element count as a. (Holds for matrices and tensors; violated for vectors of every size other than 1: resize(n) stores width 1 in the shape, and resize(shape) uses the width.)", "quantifier": "all sizes", "why_tests_cant": "The claim ranges over all sizes and hinges on hidden shape fields that tests of element access do not observe.", "anchors": ["include/Trixy/Lique/Vector.hpp: resize", "include/Trixy/Lique/Matrix.hpp: resize", "include/Trixy/Lique/Tensor.hpp: resize"]}
{"id": "C64", "title": "resize(n, value) fills with value", "statement": "Container::resize(n, v) keeps the first min(n, size()) elements and makes every additional element equal to v. (Holds for lvalue arguments; violated for an rvalue argument whose moved-from state differs: every construction after the first moves from the already moved-from argument.)", "quantifier": "all containers, all n, all v", "why_tests_cant": "depends on value category and element type", "anchors": ["include/Trixy/Container/Container.hpp: resize"]}
{"id": "C65", "title": "Convolutional layers can precede FullyConnected layers in training", "statement": "A network in which a Convolutional layer is directly followed by a FullyConnected layer can be trained. (Violated: the FullyConnected layer's delta() has shape 1x1xn, and Convolutional.backward indexes it with the convolution's depth and height, reading outside it whenever the convolution's output has more than one channel or row.)", "quantifier": "all layer sizes and inputs", "why_tests_cant": "memory error on some combinations of layers only", "anchors": ["include/Trixy/Neuro/Network/Layer/Convolutional.hpp: backward", "include/Trixy/Neuro/Network/Layer/FullyConnected.hpp: prepare, backward"]}
{"id": "C66", "title": "An optimizer can be used for tensors allocated after others were destroyed", "statement": "Using an optimizer with per-parameter state for a tensor allocated at the address of a destroyed tensor starts from zero state and is memory safe. (Violated: state is keyed by address only and never removed; a tensor of another size makes the update read outside an allocation, one of the same size inherits the old velocity.)", "quantifier": "all sizes and gradients", "why_tests_cant": "depends on the allocator and on the history", "anchors": ["include/Trixy/Neuro/Functional/Optimizer/Interface.hpp: get", "include/Trixy/Neuro/Functional/Optimizer/Momentum.hpp: update"]}
{"id": "C67", "title": "Training never leaves defined behaviour", "statement": "For every network of at least two FullyConnected, Convolutional and MaxPooling layers (any mix in which neighbours fit each other), every loss and activation that is defined on its sizes, every data set of matching shapes and every optimizer, any sequence of stochastic, batch, mini_batch, loss and feedforward calls (with a non-zero mini-batch size and non-empty data) executes without out-of-bounds access, null dereference or use of uninitialised values, and afterwards the network has the same layers, sizes and activations and all parameters are initialised.", "quantifier": "all networks, data sets, optimizers and call sequences", "why_tests_cant": "all histories", "anchors": ["include/Trixy/Neuro/Training/UnifiedNet.hpp: stochastic, batch, mini_batch", "include/Trixy/Neuro/Network/Layer/FullyConnected.hpp", "include/Trixy/Neuro/Functional/Optimizer"]}
{"id": "C68", "title": "Losses can be evaluated concurrently", "statement": "Evaluating the loss of different predictions in different threads gives in each thread the loss of its own prediction. (Violated by mean_squared_error and mean_squared_log_error: their intermediate value is a static variable shared by all threads; the interleaving in which another thread overwrites it between a thread's write and read returns a wrong loss. Sequential evaluations are correct.)", "quantifier": "all data, all interleavings", "why_tests_cant": "all schedules", "anchors": ["include/Trixy/Neuro/Functional/Function/Loss.hpp: mean_squared_error, mean_squared_log_error"]}
{"id": "C69", "title": "Mean loss over a data set", "statement": "Checker::loss and Training::loss of a non-empty data set return the mean of the losses of the individual predictions; they leave every parameter of the network unchanged.", "quantifier": "all data sets, networks and losses", "why_tests_cant": "all data", "anchors": ["include/Trixy/Neuro/Checker/Core.hpp: loss", "include/Trixy/Neuro/Training/UnifiedNet.hpp: loss"]}
{"id": "C70", "title": "Convolution results are reproducible for any arithmetic", "statement": "For every element type (floating point with any rounding included), Convolutional.forward and backward compute each output, gradient and delta cell by a fixed sequence of operations on the current parameters, the input and the incoming delta: nothing left over from earlier calls enters, padding cells contribute no operation, and no history of fitting calls leaves defined behaviour.", "quantifier": "all element types and arithmetics, geometries, inputs and histories", "why_tests_cant": "all histories; the property-based correctness theorems over rings do not cover rounding", "anchors": ["include/Trixy/Neuro/Network/Layer/Convolutional.hpp: forward, backward"]}
{"id": "C71", "title": "A small enough step of gradient descent improves the network", "statement": "For every network of FullyConnected layers whose activations and loss are differentiable at the values reached, trained with batch() and gradient descent on a non-empty data set: unless every partial derivative of the mean loss with respect to every bias and weight vanishes, there is a bound such that one epoch with any positive learning rate below it makes the value reported by loss(idata, odata) strictly smaller.", "quantifier": "all dense networks, losses, data sets, learning rates below the bound (real arithmetic)", "why_tests_cant": "all networks, data and learning rates", "anchors": ["include/Trixy/Neuro/Training/UnifiedNet.hpp: batch, loss", "include/Trixy/Neuro/Network/Layer/FullyConnected.hpp: backward, update", "include/Trixy/Neuro/Functional/Optimizer/GradDescent.hpp"]}
{"id": "C72", "title": "A failed allocation leaves tensors destructible", "statement": "When operator new throws std::bad_alloc inside an operation on a Vector, Matrix or Tensor, the exception leaves every existing object destructible: no array is freed twice and none is leaked. (Holds for the constructors and for objects that own no storage; violated by resize and copy assignment, which delete the old array before allocating the new one and keep the deleted pointer: the destructor then frees it again, and there is no later history in which no object refers to the freed array.)", "quantifier": "all histories of tensor operations with any number of failed allocations, all shapes", "why_tests_cant": "all failure points in all histories", "anchors": ["include/Trixy/Lique/Tensor.hpp: resize, operator=", "include/Trixy/Lique/Matrix.hpp: resize, operator=", "include/Trixy/Lique/Vector.hpp: resize, operator="]}
{"id": "C73", "title": "Exceptions leave a Container usable", "statement": "When an allocation or an element constructor throws inside a Container operation, the exception leaves no leak and every container destructible. (Holds for histories in which growth by reserve, push_back and resize fails in the allocation or an element constructor of resize or emplace_back throws; violated by copy assignment - the destructor then destroys elements that do not exist or frees the old array again -, by constructors whose element constructor throws - the array and its first elements are leaked -, and by reserve when an element move throws.)", "quantifier": "all histories with exceptions, all positions of the throwing element", "why_tests_cant": "all failure points in all histories", "anchors": ["include/Trixy/Container/Container.hpp: Container, operator=, reserve, resize, emplace_back"]}
{"id": "C74", "title": "Optimizers own their state arrays", "statement": "The state arrays of an optimizer (velocities, accumulated squares, moments) are created zero-filled at the size of the parameter on first use, found again on later uses, belong to exactly one optimizer, and are all freed when the optimizers are destroyed, without double free. (Violated by copying an optimizer that has been used: original and copy free the same arrays.)", "quantifier": "all histories of construction, updates, moves, copies and destruction of optimizers", "why_tests_cant": "all histories", "anchors": ["include/Trixy/Range/Unified.hpp: Range", "include/Trixy/Neuro/Functional/Optimizer/Interface.hpp: get", "include/Trixy/Neuro/Functional/Optimizer/Momentum.hpp"]}
{"id": "C75", "title": "Lockers fix size and storage", "statement": "While a VectorLocker, MatrixLocker, TensorLocker or ContainerLocker exists and is not moved from, nothing a program does with it or with other objects changes its size, shape or storage; all element-wise members stay usable and memory safe. (Holds for programs that use the exported members; violated through their results: fill, copy, apply, add, ... return a non-const reference to the TensorBase part, and assigning or swapping through it replaces shape and storage; after such an assignment the old array is leaked and destroying both objects frees the same array twice.)", "quantifier": "all histories of operations on locked and unlocked objects", "why_tests_cant": "all histories", "anchors": ["include/Trixy/Locker/Vector.hpp", "include/Trixy/Locker/Matrix.hpp", "include/Trixy/Locker/Tensor.hpp", "include/Trixy/Locker/Container.hpp", "include/Trixy/Lique/TensorBase.hpp: operator=, swap, fill"]}
{"id": "C76", "title": "Container iterators", "statement": "For a Container with n elements: k increments of begin() (k <= n) give an iterator at distance k that designates element k, equal to end() exactly if k = n; a decrement undoes an increment; it[i] is the element i places further; the loop from begin() to end() visits all elements in order; begin() + k designates element k. (The last is violated: it + n and it - n return it unchanged.)", "quantifier": "all reachable containers, all k, i, n", "why_tests_cant": "all histories and positions", "anchors": ["include/Trixy/Container/Container.hpp: iterator, const_iterator, begin, end"]}
{"id": "C77", "title": "Bounded optimizer steps", "statement": "After any history of updates of any number of tensors, one more update moves no component of its tensor by more than a fixed bound: GradDescent lr*C and Momentum and Nestorov lr*C/(1-momentum) for gradients bounded by C; AdaGrad lr, RMSProp lr/sqrt(1-beta) and Adam lr/sqrt((1-beta2)(1-beta1^2/beta2)) (beta1^2 < beta2) whatever the gradients.", "quantifier": "all histories, tensors, gradients and constants in range (real arithmetic)", "why_tests_cant": "all histories and gradients", "anchors": ["include/Trixy/Neuro/Functional/Optimizer/GradDescent.hpp", "include/Trixy/Neuro/Functional/Optimizer/Momentum.hpp", "include/Trixy/Neuro/Functional/Optimizer/Nestorov.hpp", "include/Trixy/Neuro/Functional/Optimizer/AdaGrad.hpp", "include/Trixy/Neuro/Functional/Optimizer/RMSProp.hpp", "include/Trixy/Neuro/Functional/Optimizer/Adam.hpp", "include/Trixy/Detail/FunctionDetail.hpp: invert_sqrt"]}
{"id": "C78", "title": "Rounding error bounds", "statement": "In any arithmetic with relative error u per operation (underflow of products at most \u03b7, overflow above M), if the stated magnitudes do not exceed M, no intermediate result overflows and every result is within an explicit bound of the exact real one: accumulate and the products, each layer (FullyConnected with any activation that is itself accurate, Convolutional, inference MaxPooling), feedforward through any stack of them for inputs that carry an error themselves, the gradients and delta of FullyConnected and Convolutional, and a GradDescent, StohasticGradDescent or Momentum update.", "quantifier": "all sizes, inputs, parameters, layer stacks and all arithmetics satisfying the rounding model", "why_tests_cant": "all inputs, sizes and roundings", "anchors": ["include/Trixy/Lique/Linear.hpp: dot, tensordot", "include/Trixy/Lique/Tool.hpp: accumulate", "include/Trixy/Neuro/Network/Layer/FullyConnected.hpp", "include/Trixy/Neuro/Network/Layer/Convolutional.hpp: forward", "include/Trixy/Neuro/Network/Layer/MaxPooling.hpp: forward (Raw)", "include/Trixy/Neuro/Network/UnifiedNet.hpp: feedforward", "include/Trixy/Neuro/Functional/Optimizer/GradDescent.hpp: update"]}
{"id": "C79", "title": "Stopping, saving and resuming a training", "statement": "Training a network for E1 epochs, saving it, loading it into new objects (other addresses), making a new Training object for it and training for E2 more epochs with the same optimizer leaves the same parameters as training for E1+E2 epochs without interruption; likewise for mini_batch, and for stochastic with the generator carried over.", "quantifier": "all networks, optimizers, codecs, registries, data, epoch splits and new addresses", "why_tests_cant": "all networks, data, optimizers, split points and address assignments", "anchors": ["include/Trixy/Neuro/Training/UnifiedNet.hpp: batch, mini_batch, stochastic", "include/Trixy/Neuro/Network/Layer/FullyConnected.hpp: serialize, update, reset", "include/Trixy/Neuro/Functional/Optimizer/Momentum.hpp: update, normalized_optimize", "include/Trixy/Neuro/Network/UnifiedNet.hpp: serialize"]}
{"id": "C80", "title": "Training is reproducible", "statement": "Two training objects with the same parameters, sizes, activation functions and loss, but with parameter arrays at different (pairwise distinct) addresses and arbitrary caches, stored gradients and accumulators, end with the same parameters after the same batch or mini_batch call with a fresh optimizer; for stochastic the same holds for the same draws when no accumulated gradients are pending. Every optimizer of the library, although its state is keyed by addresses, satisfies the requirement.", "quantifier": "all dense networks, address assignments, stale internal buffers, data, epochs, batch sizes, generators and library optimizers", "why_tests_cant": "all networks, allocations and histories of the objects", "anchors": ["include/Trixy/Neuro/Training/UnifiedNet.hpp: batch, mini_batch, stochastic", "include/Trixy/Neuro/Functional/Optimizer/Momentum.hpp: update", "include/Trixy/Neuro/Functional/Optimizer/Adam.hpp: update", "include/Trixy/Neuro/Functional/Optimizer/AdaGrad.hpp: update", "include/Trixy/Neuro/Functional/Optimizer/RMSProp.hpp: update", "include/Trixy/Neuro/Functional/Optimizer/Nestorov.hpp: update"]}
{"id": "C81", "title": "A seed decides the random numbers", "statement": "After a Random object is constructed with or given a seed, the numbers drawn from it are those of the seed, whatever the program does to other Random objects in between; a copy continues with the same numbers as the original.", "quantifier": "all programs over any number of Random objects (construct, construct from the current time, seed, draw, copy), all seeds, all generator classes", "why_tests_cant": "all interleavings of operations on several objects", "anchors": ["include/Trixy/Random/Core.hpp: DefaultGenerator, Random"]}
{"id": "C82", "title": "Order of the samples", "statement": "In exact arithmetic the order of the samples does not matter: batch training gives the same parameters and the same optimizer state on reordered samples, mini_batch when the samples are reordered inside each batch (and whatever follows the last full batch), linear and polynomial regression give the same weights or the same failure, and the three accuracy measures the same values. mini_batch with a single batch holding all samples is batch, in any arithmetic.", "quantifier": "all networks, optimizers, data sets, permutations, epochs and batch sizes", "why_tests_cant": "all permutations of all data sets", "anchors": ["include/Trixy/Neuro/Training/UnifiedNet.hpp: batch, mini_batch", "include/Trixy/Neuro/Training/LinearRegression.hpp: train", "include/Trixy/Neuro/Training/PolynomialRegression.hpp: train", "include/Trixy/Neuro/Checker/Accuracy.hpp"]}
{"id": "C83", "title": "Back-propagation through stacks of convolution and dense layers", "statement": "For a network of any depth mixing convolution and fully connected layers, in which every layer takes exactly the shape its predecessor delivers, feedforward(x) followed by backprop(x, y) adds to the gradient members of every convolution, and stores in those of every fully connected layer, the partial derivative of the loss of the network output with respect to each weight and bias, whatever the gradient members held before; no parameter changes.", "quantifier": "all depths, orders of the two layer kinds, shapes, paddings, strides, activations, losses, parameters, samples and previous gradients", "why_tests_cant": "a claim about derivatives at all real parameters of all architectures; numerical gradient checks sample a few", "anchors": ["include/Trixy/Neuro/Network/UnifiedNet.hpp: feedforward", "include/Trixy/Neuro/Training/UnifiedNet.hpp: backprop", "include/Trixy/Neuro/Network/Layer/Convolutional.hpp: XConvolutional", "include/Trixy/Neuro/Network/Layer/FullyConnected.hpp: XFullyConnected"]}
{"id": "C84", "title": "Gradient descent on stacks of convolution and dense layers", "statement": "batch training a network of convolution and fully connected layers with GradDescent performs, in every epoch, one step of gradient descent on the mean loss over the data set (mini_batch: one step per batch on its mean loss; stochastic: one step per drawn sample).", "quantifier": "all stacks of the two layer kinds with matching shapes, parameters, data sets, learning rates, epochs and batch sizes", "why_tests_cant": "derivatives at all parameters, all numbers of epochs", "anchors": ["include/Trixy/Neuro/Training/UnifiedNet.hpp: batch, mini_batch, stochastic", "include/Trixy/Neuro/Network/Layer/Convolutional.hpp: XConvolutional update, backward", "include/Trixy/Neuro/Functional/Optimizer/GradDescent.hpp"]}
{"id": "C85", "title": "Linear operations on operands that share storage", "statement": "dot, tensordot, transpose and inverse, in the form that writes into a caller-supplied result, leave in the result the product, outer product, transpose or inverse of the values the operands had at the call, whether or not the result object is (or shares memory with) one of the operands; operands other than the result keep their values, and nothing else in memory changes.", "quantifier": "all heaps, operand and result objects (separate or the same), sizes and element values", "why_tests_cant": "all memory layouts and all aliasing patterns, all sizes", "anchors": ["include/Trixy/Lique/Linear.hpp: dot, tensordot, transpose, inverse"]}
{"id": "C86", "title": "Networks and training in memory compute what they compute on values", "statement": "A program that builds a network with new layers (dense, convolution, max pooling), initialises it, makes a training object with a loss and an optimizer and makes any sequence of batch, mini_batch, stochastic, loss and feedforward calls is defined behaviour, and the tensors it leaves in memory hold exactly the values the same program computes when every tensor is a value of its own: no member of a layer ever shares storage with another member, with the data or with the training object. Memory that existed before the program started, in particular the data, is never changed, and where the allocator places things does not matter.", "quantifier": "all heaps, stacks of layers that fit, constructor sizes within size_t, generators, data sets placed anywhere, activations, losses and sequences of calls", "why_tests_cant": "all memory layouts, stacks, data and call sequences", "anchors": ["include/Trixy/Neuro/Network/Layer/FullyConnected.hpp", "include/Trixy/Neuro/Network/Layer/Convolutional.hpp", "include/Trixy/Neuro/Network/Layer/MaxPooling.hpp", "include/Trixy/Neuro/Network/UnifiedNet.hpp", "include/Trixy/Neuro/Training/UnifiedNet.hpp"]}
{"id": "C87", "title": "The tensor feedforward returns can be kept and used like any other", "statement": "The tensor that feedforward returns can be kept while the network is used again, handed to the network as the next input and used as a training target, with the same result as a copy of it. (Violated. feedforward returns a reference into the network, the same for every call: a kept result turns into the latest one; a target that is the output of the network is the new output, so with the squared error the delta is zero; a network of one inference dense layer fed its own output computes f(b) whatever the output was; a one-layer convolution fed its own output reads elements it has already overwritten. Feeding a network its own output any number of times is right when it has at least two layers or is one training dense layer.)", "quantifier": "all networks, memory layouts, inputs and numbers of rounds", "why_tests_cant": "all networks, shapes, placements and histories", "anchors": ["include/Trixy/Neuro/Network/UnifiedNet.hpp", "include/Trixy/Neuro/Training/UnifiedNet.hpp", "include/Trixy/Neuro/Network/Layer/FullyConnected.hpp", "include/Trixy/Neuro/Network/Layer/Convolutional.hpp"]}
{"id": "C88", "title": "Layers built from named arguments have the geometry the arguments name", "statement": "A layer constructed with set::Input, Filter, Padding, Stride and Output has the geometry these arguments name: Convolutional(Input(d,h,w), Filter(n,fh,fw), Padding(ph,pw), Stride(sv,sh)) pads the rows by ph and the columns by pw and has n output channels of (h+2ph-fh)/sv+1 by (w+2pw-fw)/sh+1; MaxPooling(Input, Stride) uses windows of sv by sh; FullyConnected(Input(d,h,w), Output(..)) takes the d*h*w elements in row-major order. (Violated for Padding with two different numbers: the second is ignored, so the output has the wrong width; the documented Filter(7, 64) is one filter of 7 by 64. Holds with equal paddings.)", "quantifier": "all shapes, strides, paddings, parameters, inputs and histories of calls", "why_tests_cant": "all shapes and histories", "anchors": ["include/Trixy/Neuro/Network/Layer/Volume.hpp", "include/Trixy/Lique/Shape.hpp", "include/Trixy/Neuro/Network/Layer/Convolutional.hpp", "include/Trixy/Neuro/Network/Layer/MaxPooling.hpp", "include/Trixy/Neuro/Network/Layer/FullyConnected.hpp"]}
{"id": "C89", "title": "A value that is not a number is never silently turned into a number", "statement": "If an input, a parameter or a gradient is NaN, what is computed from it is NaN, so that a user can detect a diverged training: through activations, softmax, dense and convolution layers, whole dense networks, every loss, and every optimizer step (a NaN parameter or one that once got a NaN gradient stays NaN). Accuracies do not count NaN predictions as correct. (Violated: ReLU maps NaN to 0, so a ReLU layer hides NaN input from the rest of the network; max-pooling drops a NaN unless it is the first cell of the window, in which case it ignores the other cells; argmax answers 0 when the first element is NaN; Accuracy.full gives an all-NaN predictor the score 1 and Accuracy.normal reads it as class 0; the MAE derivative of NaN is 0.)", "quantifier": "all inputs, parameters, layer sizes, geometries, data sets, gradient sequences and positions of the NaN, for every floating-point type whose operations with a NaN operand give NaN and whose comparisons with NaN are false", "why_tests_cant": "every position, size and history", "anchors": ["include/Trixy/Neuro/Functional/Function/ActivationLess.hpp", "include/Trixy/Neuro/Functional/Function/Activation.hpp", "include/Trixy/Neuro/Functional/Function/Loss.hpp", "include/Trixy/Neuro/Network/Layer/FullyConnected.hpp", "include/Trixy/Neuro/Network/Layer/Convolutional.hpp", "include/Trixy/Neuro/Network/Layer/MaxPooling.hpp", "include/Trixy/Lique/Tool.hpp", "include/Trixy/Neuro/Checker/Accuracy.hpp", "include/Trixy/Neuro/Functional/Optimizer/Momentum.hpp"]}
{"id": "C90", "title": "Changing the learning rate takes effect from the next update on and changes nothing else", "statement": "optimizer.learning_rate(v) may be called between any two updates: learning_rate() then returns v, every later update of every tensor uses v, and everything accumulated so far is kept. In every program of learning_rate calls and updates of any number of tensors, each tensor follows the published update rule with the rate in force at each of its updates (gradient descent, momentum, Nesterov, AdaGrad, RMSProp; Adam with bias corrections that count all update calls); and setting the rate of a fresh optimizer is the same as constructing it with that rate. (Violated for StoGradDescent: its weight decay factor 1 - rate*decay keeps the rate given to the constructor.)", "quantifier": "all programs of rate changes and updates, all tensors, sizes, gradients, rates and optimizer parameters", "why_tests_cant": "all schedules and interleavings", "anchors": ["include/Trixy/Neuro/Functional/Optimizer/Interface.hpp", "include/Trixy/Neuro/Functional/Optimizer/GradDescent.hpp", "include/Trixy/Neuro/Functional/Optimizer/StoGradDescent.hpp", "include/Trixy/Neuro/Functional/Optimizer/Momentum.hpp", "include/Trixy/Neuro/Functional/Optimizer/Nestorov.hpp", "include/Trixy/Neuro/Functional/Optimizer/AdaGrad.hpp", "include/Trixy/Neuro/Functional/Optimizer/RMSProp.hpp", "include/Trixy/Neuro/Functional/Optimizer/Adam.hpp"]}
{"id": "C91", "title": "Finite numbers give finite results", "statement": "In every floating-point format (largest number, infinities, NaN), with any mathematical library whose functions stay in their ranges: every activation function and every derivative returns a finite number for every finite argument; SoftMax of finite numbers returns finite numbers between 0 and 1; the losses of finite probabilities are finite. (Violated: SoftPlus overflows to infinity although its value is hardly larger than the argument; the derivatives of GELU and Swish return NaN for large arguments; unstable_softmax returns NaN; LogCosh overflows; NLL is infinite when the target class has probability 0; BCE of the perfect prediction 1 is NaN in formats where 1e-9 - 1 rounds to -1, such as float.)", "quantifier": "all floating-point formats, mathematical libraries, finite arguments, vector lengths up to the largest exact integer", "why_tests_cant": "all floating-point formats and all finite arguments", "anchors": ["include/Trixy/Neuro/Functional/Function/ActivationLess.hpp", "include/Trixy/Neuro/Functional/Function/Activation.hpp: softmax, unstable_softmax", "include/Trixy/Neuro/Functional/Function/Loss.hpp"]}
{"id": "C92", "title": "Tensors are values", "statement": "Whatever history of constructions, copies, moves, assignments, swaps, resizes, reshapes, fills, element writes, destructions and operations on views a program performs on vectors, matrices and tensors: what every object and every view then shows (class, dimensions, size, each element) is what it shows when every object simply is a list of numbers with dimensions and every view is the name of an object; an operation on one object never changes another one, a view shows the writes through the object and the other way round, and a view follows its elements through moves and swaps. (Violated: swap accepts the base class, so exchanging an owning object with a view leads to a double free; copy construction of vectors, copy assignment of matrices and tensors of different sizes, default-constructed matrices and resized vectors behave as described in C04 to C06 and C63.)", "quantifier": "all histories of operations, all element values, all shapes, all numbers of objects and views", "why_tests_cant": "unbounded histories over any number of objects and views with moves and swaps between them", "anchors": ["include/Trixy/Lique/TensorBase.hpp: swap", "include/Trixy/Lique/Vector.hpp", "include/Trixy/Lique/Matrix.hpp", "include/Trixy/Lique/Tensor.hpp"]}
{"id": "C93", "title": "Functions that return tensors return new, independent objects", "statement": "The forms of dot, tensordot, transpose and inverse that return their result return a new object of the right class and dimensions that owns storage nothing else refers to and holds exactly the product, transposed or inverse matrix; the operands and every other object in the program keep their contents (inverse leaves the identity matrix in its argument); the operands may share storage; destroying the result gives the store back as it was, so that expressions such as dot(dot(A, B), C) leave only the final result behind. (Violated: inverse sizes its result by depth times height, so for a matrix that was default constructed and later resized or assigned it writes outside its storage.)", "quantifier": "all stores, all shapes, all element values, operands with or without shared storage", "why_tests_cant": "all shapes, values and store contents, absence of any other change", "anchors": ["include/Trixy/Lique/Linear.hpp: dot, tensordot, transpose, inverse (value-returning overloads)", "include/Trixy/Lique/Matrix.hpp: Tensor(const shape_type&)"]}
{"id": "C94", "title": "References to container elements", "statement": "While a Container stays within its capacity (emplace_back with size() < capacity(), resize and reserve up to capacity(), pop_back, element writes, saving) and whatever happens to other containers, its elements do not move: every pointer, reference or iterator to element i keeps showing element i. reserve(n) makes capacity() at least n. An element, of the container itself or of another one, may be passed as the argument of emplace_back and resize with the same effect as passing its value. (Violated: emplace_back(c[i]) on a full container and resize(n, c[i]) with n > capacity() read the element after its storage has been released.)", "quantifier": "all histories of operations on any number of containers, all element types and values, all indices", "why_tests_cant": "unbounded histories; use-after-free may go unnoticed in a test", "anchors": ["include/Trixy/Container/Container.hpp: emplace_back, resize, reserve"]}
{"id": "C95", "title": "A save that was cut short is never loaded as if complete", "statement": "If saving an object (tensor, regression model, pooling layer, network, container, or anything wrapped in Serializer) succeeded and any non-empty part at the end of the saved bytes is lost, loading what remains reports the end of the stream; it never returns an object, neither the saved one nor another. This is a statement about the record layout: every byte written is demanded by the reader before it finishes.", "quantifier": "all objects that can be saved, all cut positions, all encodings of numbers satisfying the stated codec assumptions", "why_tests_cant": "all objects and all crash points of the writer", "anchors": ["include/Trixy/Neuro/Serializer/Core.hpp: serialize, deserialize", "include/Trixy/Lique/TensorBase.hpp: SERIALIZATION", "include/Trixy/Container/Container.hpp: SERIALIZATION", "include/Trixy/Neuro/Network/UnifiedNet.hpp: SERIALIZATION"]}
{"id": "C96", "title": "Networks in different threads do not interfere", "statement": "If several threads use different networks at the same time (each thread evaluating its own network, or training it with its own training object, optimizer and generator), on input and target tensors they may share, then under every interleaving of their memory accesses there is no undefined behaviour and no data race, the shared data is unchanged, every thread finishes, and it finishes with exactly the outputs, parameters, gradients, optimizer and generator state it would have had alone. The condition is needed: two threads that evaluate one network race in their first accesses, and even if they take turns both end up with the result of the last call.", "quantifier": "all programs that build and initialise any number of networks (dense, convolution, pooling, any sizes), all data, all sequences of training and evaluation calls per thread, all schedules", "why_tests_cant": "all interleavings of all accesses; a test sees a few schedules", "anchors": ["include/Trixy/Neuro/Network/UnifiedNet.hpp: feedforward", "include/Trixy/Neuro/Training/UnifiedNet.hpp: batch, mini_batch, stochastic", "include/Trixy/Neuro/Network/Layer/FullyConnected.hpp: forward, backward, update", "include/Trixy/Neuro/Network/Layer/Convolutional.hpp", "include/Trixy/Neuro/Network/Layer/MaxPooling.hpp", "include/Trixy/Neuro/Functional/Function/Activation.hpp", "include/Trixy/Neuro/Functional/Function/Loss.hpp", "include/Trixy/Neuro/Functional/Optimizer/GradDescent.hpp"]}
{"id": "C97", "title": "Programs that create and destroy networks leak nothing", "statement": "In every program that builds networks with their training objects, trains and evaluates them and destroys them (network and training object in either order), with any number of networks alive at a time and in any order, there is no undefined behaviour (in particular no double free and no use of freed memory), at every moment the allocations in use are exactly those the program started with and the tensors of the networks that exist, the data is unchanged, and every existing network is in the state it would have if no other had ever existed. After the last network is destroyed, memory is what it was at the start.", "quantifier": "all sequences of create, call and destroy on any number of networks (dense, convolution, pooling, any sizes), all data, all training calls", "why_tests_cant": "all histories; a leak or a shared buffer may need a particular order of construction, training and destruction", "anchors": ["include/Trixy/Neuro/Network/UnifiedNet.hpp: UnifiedNet, ~UnifiedNet, add", "include/Trixy/Neuro/Training/UnifiedNet.hpp: Training", "include/Trixy/Neuro/Network/Layer/FullyConnected.hpp", "include/Trixy/Neuro/Network/Layer/Convolutional.hpp", "include/Trixy/Neuro/Network/Layer/MaxPooling.hpp", "include/Trixy/Lique/Tensor.hpp: ~Tensor", "include/Trixy/Container/Container.hpp: ~Container"]}
{"id": "C98", "title": "Optimizers with state tables follow their formulas in memory, and free everything", "statement": "Training a network with Momentum, Nestorov, AdaGrad, RMSProp or Adam, from the constructors through any sequence of training calls, loss evaluations and feed-forwards to the destructors, is free of undefined behaviour; the state tables, whose arrays are allocated in the middle of training and then updated in place, the network and the generator have exactly the values of the same program computed on mathematical values (where a table is a map from parameters to vectors); no data or other memory from before is changed; at the end exactly the tensors of the network and training object and one array per table and updated parameter are allocated, and after the destructors of the network, the training object and the optimizer, in any order, nothing of it is left.", "quantifier": "all stacks of dense, convolutional and pooling layers that fit, all data, all sequences of calls, all hyper-parameters (betas in [0,1) for Adam), all addresses the allocator may choose, all orders of destruction", "why_tests_cant": "the tables are keyed by addresses and grow during training; overlap of an array with a parameter, a stale or shared entry, or a leak would depend on the allocation history", "anchors": ["include/Trixy/Neuro/Functional/Optimizer/Momentum.hpp: update", "include/Trixy/Neuro/Functional/Optimizer/Nestorov.hpp: update", "include/Trixy/Neuro/Functional/Optimizer/AdaGrad.hpp: update", "include/Trixy/Neuro/Functional/Optimizer/RMSProp.hpp: update", "include/Trixy/Neuro/Functional/Optimizer/Adam.hpp: update", "include/Trixy/Neuro/Functional/Optimizer/Interface.hpp: get", "include/Trixy/Range/Unified.hpp: resize, ~Range", "include/Trixy/Neuro/Training/UnifiedNet.hpp: Training"]}
{"id": "C99", "title": "One optimizer object can serve several networks", "statement": "When several networks are trained with one optimizer object, in whatever order and by whatever calls, each of them ends up as if it had had an optimizer object of its own (with the same settings) and the other networks did not exist, and the joint program succeeds exactly if every one of these separate programs does. VIOLATED for Adam: the running powers of its betas are one pair of numbers for the whole object, so the steps one network takes depend on how often the others were updated.", "quantifier": "all numbers of networks of all shapes (even ill-formed ones), all interleavings of training calls, loss evaluations and feed-forwards on them, all data, all settings and all earlier states of the optimizer", "why_tests_cant": "the optimizer identifies parameters by address; a test shows that two particular networks do not disturb each other in one order of calls, not that no interleaving does", "anchors": ["include/Trixy/Neuro/Functional/Optimizer/Momentum.hpp: update", "include/Trixy/Neuro/Functional/Optimizer/Nestorov.hpp: update", "include/Trixy/Neuro/Functional/Optimizer/AdaGrad.hpp: update", "include/Trixy/Neuro/Functional/Optimizer/RMSProp.hpp: update", "include/Trixy/Neuro/Functional/Optimizer/Adam.hpp: update", "include/Trixy/Neuro/Functional/Optimizer/GradDescent.hpp: update", "include/Trixy/Neuro/Functional/Optimizer/StoGradDescent.hpp: update", "include/Trixy/Neuro/Training/UnifiedNet.hpp: Training"]}
