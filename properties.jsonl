{"id": "C01", "title": "Whole-tensor operations visit every element exactly once, in row-major order, and terminate", "statement": "For a tensor of any shape, the traversal used by every element-wise operation, copy, fill, sum, mean, all, max and min applies its body to each multi-index of the shape exactly once, in row-major (last axis fastest) order, and then returns; it applies the body once for a 0-dimensional shape and never if some size is 0.", "quantifier": "every shape (any rank, any sizes including 0 and 1)", "why_tests_cant": "The traversal is a hand-written odometer with a carry loop; tests sample a handful of ranks, while termination and exactly-once must hold for every rank and size.", "anchors": ["include/INNC/utils/utils.hpp:for_each_sizevec", "include/INNC/ops.hpp:tensor_sum", "include/INNC/ops.hpp:tensor_mean", "src/INNC/tensorImpl.cpp:TensorImpl::all"]}
{"id": "C02", "title": "A freshly created tensor stores its elements bijectively and in bounds", "statement": "In a newly created tensor, distinct multi-indices denote distinct storage elements, every multi-index is inside the allocated storage, and every storage element belongs to exactly one multi-index; the element of multi-index idx is the one at idx's row-major rank.", "quantifier": "every shape whose byte size is below 2^63", "why_tests_cant": "Injectivity and bounds quantify over all index pairs of all shapes.", "anchors": ["src/INNC/layouts.cpp:StridedLayout::StridedLayout(const SizeVec&)", "src/INNC/layouts.cpp:StridedLayout::cnt_from_index", "src/INNC/storage.cpp:UntypedStorage::alloc"]}
{"id": "C03", "title": "is_contiguous is exact", "statement": "is_contiguous() returns true precisely when the strides are the row-major strides of the shape; every freshly created tensor and every result of contiguous() and clone() is contiguous; and when it returns true the element at idx is stored at the view's offset plus the row-major rank of idx.", "quantifier": "every shape and every strided view", "why_tests_cant": "The claim is an equivalence over all stride vectors, including ones produced by arbitrary chains of views.", "anchors": ["src/INNC/layouts.cpp:StridedLayout::is_contiguous", "src/INNC/layouts.cpp:StridedLayout::contiguous_from"]}
{"id": "C04", "title": "numel is the product of the sizes and never overflows silently", "statement": "numel() equals the mathematical product of size(), so a tensor can only be created if that many elements were allocated.", "quantifier": "every shape", "why_tests_cant": "The product is computed modulo 2^64; overflow needs sizes no test allocates.", "anchors": ["src/INNC/layouts.cpp:Layout::numel", "src/INNC/tensorImpl.cpp:TensorImpl::create"]}
{"id": "C05", "title": "Integer indexing selects the counted element, from either end, or throws", "statement": "Indexing one axis of size n with the integer k drops that axis and selects position k if 0 <= k < n, position n+k if -n <= k < 0, and throws std::runtime_error otherwise; all other axes keep their elements and order.", "quantifier": "every tensor, axis, and 64-bit integer k", "why_tests_cant": "Boundary behaviour for every n and k, composed with arbitrary strides and offsets.", "anchors": ["src/INNC/tensorImpl.cpp:TensorImpl::operator[]"]}
{"id": "C06", "title": "Range slicing agrees with Python's slice semantics", "statement": "Slicing one axis of size n with start:stop:step (any part omitted, step non-zero) yields exactly the elements a Python sequence of length n yields for the same slice, in the same order; a zero step throws std::runtime_error.", "quantifier": "every axis size, every optional start, stop and non-zero step in the 64-bit range", "why_tests_cant": "Clamping, negative wrap-around and negative steps interact; the test suite samples about fifteen combinations of an infinite space.", "anchors": ["src/INNC/tensorImpl.cpp:TensorImpl::operator[]"]}
{"id": "C07", "title": "A slice string means what it spells", "statement": "A slice string built by writing, per axis, an integer or start:stop:step with optional parts in decimal and arbitrary surrounding blanks, separated by commas, is read back as exactly those numbers; omitted trailing axes are taken whole; more comma-separated parts than axes, and a part that is not a number, are rejected with an exception.", "quantifier": "every list of axis specifications, every amount of white space", "why_tests_cant": "It is a parser round-trip over an infinite set of strings.", "anchors": ["src/INNC/tensorImpl.cpp:TensorImpl::operator[]", "src/INNC/utils/utils.cpp:ssplit", "include/INNC/utils/utils.hpp:trim_"]}
{"id": "C08", "title": "Slices of any tensor stay inside its storage", "statement": "If every element of a tensor lies inside its allocated storage then every element of any slice, transpose or no-copy reshape of it does as well, along any chain of such views.", "quantifier": "every tensor and every finite chain of slice, transpose and reshape", "why_tests_cant": "It is an inductive invariant over unbounded chains of views with negative strides and offsets computed modulo 2^64.", "anchors": ["src/INNC/tensorImpl.cpp:TensorImpl::operator[]", "src/INNC/tensorImpl.cpp:TensorImpl::transpose", "src/INNC/tensorImpl.cpp:TensorImpl::reshape"]}
{"id": "C09", "title": "Views alias their base exactly", "statement": "After a += b on a view a of a tensor t, the elements of t that a denotes have changed by b and every other element of t, and of every tensor on another storage, is unchanged.", "quantifier": "every tensor, every view of it, every right operand on a different storage", "why_tests_cant": "Non-interference over all views and all other tensors in the program.", "anchors": ["src/INNC/tensorImpl.cpp:TensorImpl::operator+=", "src/INNC/tensorImpl.cpp:TensorImpl::operator[]"]}
{"id": "C10", "title": "transpose swaps two axes and is an involution", "statement": "transpose(i, j) with i != j both below the rank returns a view whose element at an index is the input's element at the index with positions i and j swapped; applying it twice gives back the same shape and elements; i = j or an index not below the rank throws std::runtime_error.", "quantifier": "every tensor, every pair of axes", "why_tests_cant": "An algebraic law over all ranks, axes and strided inputs.", "anchors": ["src/INNC/tensorImpl.cpp:TensorImpl::transpose"]}
{"id": "C11", "title": "reshape keeps the elements in row-major order", "statement": "If the product of the requested sizes equals numel(), reshape returns a tensor of that shape listing the same elements in the same row-major order, whether or not the input is contiguous; otherwise it throws std::runtime_error.", "quantifier": "every strided input and every requested shape", "why_tests_cant": "Correct for all stride patterns, both on the aliasing and on the copying path.", "anchors": ["src/INNC/tensorImpl.cpp:TensorImpl::reshape(const std::shared_ptr<TensorImpl>&, const SizeVec&)"]}
{"id": "C12", "title": "reshape infers a single -1", "statement": "reshape with exactly one -1 and all other entries positive with product s succeeds exactly when s divides numel() and then the -1 axis has size numel()/s; two or more -1 throw std::runtime_error.", "quantifier": "every numel and every request", "why_tests_cant": "Arithmetic over all sizes; the division-by-zero and negative-entry corners are not in the test suite.", "anchors": ["src/INNC/tensorImpl.cpp:regularize_size"]}
{"id": "C13", "title": "reshape shares storage exactly when the axes collapse to one stride", "statement": "A no-copy reshape result shares storage with its input when the input's strides are row-major multiples of its last stride; in every other case the result lives on a storage of its own, so later writes through one are invisible through the other.", "quantifier": "every strided input", "why_tests_cant": "Aliasing is a property of all later histories.", "anchors": ["src/INNC/tensorImpl.cpp:TensorImpl::reshape(const std::shared_ptr<TensorImpl>&, const SizeVec&)"]}
{"id": "C14", "title": "Broadcasting shape and element rule", "statement": "For a + b, a - b, a * b, a / b and the comparisons, the result's shape is the NumPy broadcast of the operand shapes and the element at idx combines the operands' elements at idx projected onto each operand's shape.", "quantifier": "every pair of broadcast-compatible shapes and strided layouts", "why_tests_cant": "All pairs of ranks and sizes, including 0- and 1-sized axes.", "anchors": ["src/INNC/utils/utils.cpp:broadcast_range", "src/INNC/tensorImpl.cpp:TensorImpl::cnt_from_aug_index", "include/INNC/ops.hpp:tensor_add"]}
{"id": "C15", "title": "Incompatible shapes are rejected", "statement": "A binary operation on operands whose shapes are not broadcast-compatible throws std::runtime_error and never returns a tensor.", "quantifier": "every pair of incompatible shapes", "why_tests_cant": "The explicit check in broadcast_range is a tautology; rejection happens only because some element access is out of range, so it must be argued for all shapes.", "anchors": ["src/INNC/utils/utils.cpp:broadcast_range", "src/INNC/tensorImpl.cpp:TensorImpl::cnt_from_aug_index"]}
{"id": "C16", "title": "Result type of arithmetic is the larger operand type, consistently", "statement": "The result of a binary arithmetic operation has the later of the two operand types in the order i8,i16,i32,i64,f32,f64, and elements are computed and stored as that type, so no element is ever reinterpreted as a different type.", "quantifier": "every pair of element types", "why_tests_cant": "The result type is computed once at run time (larger_type) and once by template metaprogramming (innc_common_t); they must agree for every pair.", "anchors": ["include/INNC/types.hpp:larger_type", "include/INNC/types.hpp:innc_common_t", "include/INNC/utils/utils.hpp:apply_no_grad_binary_op"]}
{"id": "C17", "title": "Element arithmetic is C++ arithmetic of the promoted operands", "statement": "Each element of a+b, a-b, a*b, a/b is the C++ result: exact integer arithmetic reduced to the result type when both operands are at most 16 bits, exact integer arithmetic when it fits 32/64 bits, truncating integer division, and the float operation otherwise; a wider overflow or an integer division by zero is undefined behaviour and is the only way such an operation can be undefined on valid operands.", "quantifier": "all operand values of all types", "why_tests_cant": "2^128 operand pairs per type pair.", "anchors": ["include/INNC/ops.hpp:tensor_add", "include/INNC/ops.hpp:tensor_sub", "include/INNC/ops.hpp:tensor_mul", "include/INNC/ops.hpp:tensor_div"]}
{"id": "C18", "title": "Addition and multiplication commute", "statement": "a + b and b + a, and a * b and b * a, have the same shape, type and elements.", "quantifier": "all operands, including mixed types and broadcasting", "why_tests_cant": "The implementation swaps operands by type; commutation must survive every combination.", "anchors": ["include/INNC/utils/utils.hpp:apply_no_grad_binary_op"]}
{"id": "C19", "title": "Operations do not modify their operands and return independent results", "statement": "Except for views, +=, backward and the explicitly mutating calls, an operation leaves every existing tensor's shape, type and elements unchanged and its result lives on a storage no other tensor uses, whether it returns or throws.", "quantifier": "every heap of tensors, every operation and arguments", "why_tests_cant": "Frame conditions range over every other tensor in the program.", "anchors": ["src/INNC/tensorImpl.cpp", "include/INNC/utils/utils.hpp:apply_binary_operator"]}
{"id": "C20", "title": "Comparisons return 0/1 tensors", "statement": "a<b, a>b, a<=b, a>=b, a==b, a!=b return an i8 tensor of the broadcast shape holding 1 where the relation holds between the (converted) elements and 0 elsewhere; for integers exactly one of <, ==, > holds at each index and <=, >=, != are their complements.", "quantifier": "all operands", "why_tests_cant": "All values, types and shapes.", "anchors": ["include/INNC/utils/utils.hpp:apply_cmp_op", "include/INNC/ops.hpp:tensor_lt"]}
{"id": "C21", "title": "all() is true exactly when every element is non-zero", "statement": "all() returns true if and only if no element is zero, for a tensor of any type; it is true for a tensor with no elements.", "quantifier": "every tensor", "why_tests_cant": "Quantifies over all elements of all tensors and types.", "anchors": ["src/INNC/tensorImpl.cpp:TensorImpl::all"]}
{"id": "C22", "title": "sum is the sum of all elements", "statement": "sum() returns a 0-dimensional tensor (i64 for integer inputs, f64 for float inputs) holding the sum of all elements accumulated in row-major order; it is 0 for a tensor without elements and independent of strides.", "quantifier": "every tensor whose partial sums fit the accumulator", "why_tests_cant": "All shapes, strides and values.", "anchors": ["include/INNC/ops.hpp:tensor_sum", "src/INNC/tensorImpl.cpp:TensorImpl::sum"]}
{"id": "C23", "title": "mean is the sum divided by the number of elements", "statement": "mean() returns the sum divided by numel() (truncating for integer inputs); 0 for a tensor without elements.", "quantifier": "every tensor", "why_tests_cant": "All shapes, strides and values.", "anchors": ["include/INNC/ops.hpp:tensor_mean", "src/INNC/tensorImpl.cpp:TensorImpl::mean"]}
{"id": "C24", "title": "max and min return the extreme element", "statement": "max() (min()) of a tensor with at least one element returns an element of the tensor that is >= (<=) every element.", "quantifier": "every non-empty tensor, including views", "why_tests_cant": "All strided views; the code reads the storage's first element, which a view may not contain.", "anchors": ["include/INNC/ops.hpp:tensor_max", "include/INNC/ops.hpp:tensor_min"]}
{"id": "C25", "title": "abs is element-wise absolute value for every tensor", "statement": "abs() returns a tensor of the same shape and type whose elements are the absolute values of the input's, for contiguous tensors and for views, without touching memory outside its own storage.", "quantifier": "every tensor, including views", "why_tests_cant": "Memory safety for all strides and offsets.", "anchors": ["src/INNC/tensorImpl.cpp:TensorImpl::abs", "include/INNC/ops.hpp:tensor_abs"]}
{"id": "C26", "title": "Type conversion converts every element and widening is lossless", "statement": "type(t) returns a tensor of type t and the same shape with each element converted; converting an integer tensor to a wider integer type and back restores every element; type(t) with t the tensor's own type returns the same tensor; a tensor that requires grad cannot be converted to an integer type (std::runtime_error).", "quantifier": "every tensor and pair of types", "why_tests_cant": "All values.", "anchors": ["src/INNC/tensorImpl.cpp:TensorImpl::type(types)", "include/INNC/ops.hpp:tensor_to_type"]}
{"id": "C27", "title": "Constructors hold the promised values", "statement": "zeros, ones, full, eye and from_blob return a contiguous tensor of the requested shape and type with every element equal to 0, 1, the converted number, the identity-matrix entry, or the blob's element at the row-major rank; zeros_like and ones_like copy shape and type.", "quantifier": "every shape, type and value", "why_tests_cant": "All shapes and positions.", "anchors": ["src/INNC/tensorImpl.cpp:TensorImpl::ones", "src/INNC/tensorImpl.cpp:TensorImpl::zeros", "src/INNC/tensorImpl.cpp:TensorImpl::full", "src/INNC/tensorImpl.cpp:TensorImpl::eye", "src/INNC/tensorImpl.cpp:TensorImpl::from_blob"]}
{"id": "C28", "title": "Nested initializer lists build the tensor they depict", "statement": "A nested initializer list of depth d whose sublists all have equal shapes and types yields the tensor of that shape with the values in reading order; any mismatch throws std::invalid_argument.", "quantifier": "every nesting depth and every list", "why_tests_cant": "Unbounded nesting.", "anchors": ["include/INNC/tensor.hpp:TensorInit", "src/INNC/tensor.cpp:TensorInit::createImpl"]}
{"id": "C29", "title": "cat concatenates", "statement": "cat(ts, d) of tensors with equal rank and equal sizes off axis d returns the tensor whose size on d is the sum of theirs, whose type is the largest of theirs, and whose blocks along d are their elements converted, in order; a rank or size mismatch or d not below the rank throws std::runtime_error.", "quantifier": "every non-empty list of tensors (including views) and every axis", "why_tests_cant": "All list lengths, ranks and layouts.", "anchors": ["src/INNC/tensorImpl.cpp:TensorImpl::cat", "include/INNC/ops.hpp:tensor_cat"]}
{"id": "C30", "title": "clone is isolated, detach is shared", "statement": "clone() returns equal elements on its own storage, so no later in-place operation on one is visible in the other; detach() returns a tensor denoting the same storage elements that does not require grad.", "quantifier": "every tensor and every later sequence of in-place operations on tensors of the other storage", "why_tests_cant": "Isolation quantifies over all later histories.", "anchors": ["src/INNC/tensorImpl.cpp:TensorImpl::clone", "src/INNC/tensorImpl.cpp:TensorImpl::detach"]}
{"id": "C31", "title": "to_string prints the nested row-major listing", "statement": "to_string() prints the elements in row-major order in nested brackets following the shape, whatever the strides, and for integer tensors without empty axes the text determines shape and elements.", "quantifier": "every tensor", "why_tests_cant": "All shapes and strides; injectivity is a statement about pairs of tensors.", "anchors": ["src/INNC/layouts.cpp:StridedLayout::to_string_from_helper", "src/INNC/layouts.cpp:StridedLayout::to_string_from"]}
{"id": "C32", "title": "In-place addition adds, with broadcasting accumulation", "statement": "a += b on disjoint storages adds to each element of a the sum, in row-major order, of the elements of b projected onto it (exactly one element when b broadcasts to a's shape) and changes nothing else; it throws std::runtime_error, changing nothing, if a requires grad.", "quantifier": "every pair of tensors on different storages with compatible shapes", "why_tests_cant": "All shapes and layouts; gradient accumulation relies on it.", "anchors": ["src/INNC/tensorImpl.cpp:TensorImpl::operator+="]}
{"id": "C33", "title": "A failing operation changes nothing", "statement": "If an operation throws, every tensor that existed before has the same elements as before.", "quantifier": "every operation and every failing argument", "why_tests_cant": "Exception safety is a statement about every failing execution.", "anchors": ["src/INNC/tensorImpl.cpp:TensorImpl::operator+=", "include/INNC/utils/utils.hpp:apply_no_grad_binary_op"]}
{"id": "C34", "title": "Only floating-point tensors ever require grad", "statement": "After any sequence of API calls, requires_grad() is true only for tensors of type f32 or f64.", "quantifier": "every finite history of API calls", "why_tests_cant": "An invariant over unbounded histories.", "anchors": ["src/INNC/tensor.cpp:Tensor::requires_grad(bool)", "src/INNC/tensorImpl.cpp:TensorImpl::type(types)"]}
{"id": "C35", "title": "Gradient tracking follows the operands", "statement": "The result of an arithmetic operation, sum, mean, abs, max, min, clone, type change, slice, transpose, reshape or cat requires grad exactly when one of its tensor operands does; comparisons and detach never do.", "quantifier": "every operation and operands", "why_tests_cant": "Every combination of flags and operations.", "anchors": ["include/INNC/utils/utils.hpp:apply_binary_operator", "src/INNC/tensorImpl.cpp"]}
{"id": "C36", "title": "backward is rejected unless it can start", "statement": "backward() throws std::runtime_error and changes nothing if the tensor does not require grad, is not the result of an operation, or does not have exactly one element.", "quantifier": "every tensor in every state", "why_tests_cant": "Every reachable state.", "anchors": ["src/INNC/tensorImpl.cpp:TensorImpl::backward"]}
{"id": "C37", "title": "backward terminates and processes each node once, after all its consumers", "statement": "On a graph no part of which has been back-propagated before and all of whose interior tensors require grad, backward() terminates, propagates from each reachable interior tensor exactly once, and only after every reachable tensor computed from it has been propagated.", "quantifier": "every acyclic graph, of any size and sharing", "why_tests_cant": "Kahn-style counting over all DAGs, including shared sub-expressions and repeated operands.", "anchors": ["src/INNC/tensorImpl.cpp:refresh_n_outway", "src/INNC/tensorImpl.cpp:TensorImpl::backward"]}
{"id": "C38", "title": "backward computes the derivative", "statement": "In exact arithmetic, after backward() on a fresh graph whose root is a computed one-element tensor (not itself a view; see C45), each leaf's gradient has grown by the derivative of the root with respect to that leaf (vector-Jacobian product), for graphs of +, -, *, sum, clone, type change, transpose, slice, reshape, cat and abs/max/min.", "quantifier": "every program over the listed operations, all values", "why_tests_cant": "Tests compare a few gradients; the claim is the chain rule over all DAGs.", "anchors": ["src/INNC/function.cpp", "src/INNC/tensorImpl.cpp:TensorImpl::backward"]}
{"id": "C39", "title": "Gradients can be accumulated by running backward again", "statement": "Calling backward() again on the same tensor, or on another tensor that shares interior tensors with an earlier one, adds the full derivative to every leaf again.", "quantifier": "every graph and every number of repetitions", "why_tests_cant": "A property of histories of backward calls.", "anchors": ["include/INNC/function.hpp:Backward::is_ready", "src/INNC/function.cpp:Backward::try_accumulate_update"]}
{"id": "C40", "title": "Interior gradients are dropped unless retained", "statement": "After backward(), grad() of the root and of every propagated interior tensor is empty unless retain_grad was set, and grad() of every leaf is kept.", "quantifier": "every graph and choice of flags", "why_tests_cant": "Every DAG and flag assignment.", "anchors": ["src/INNC/tensorImpl.cpp:TensorImpl::backward"]}
{"id": "C41", "title": "zero_grad resets the gradient", "statement": "zero_grad() makes every element of grad() zero and does nothing when there is no gradient; it affects no other tensor's gradient.", "quantifier": "every tensor", "why_tests_cant": "Aliasing of gradient storages across views.", "anchors": ["src/INNC/tensorImpl.cpp:TensorImpl::zero_grad", "src/INNC/tensorImpl.cpp:share_grad_storage"]}
{"id": "C42", "title": "The gradient of mean scales with the upstream gradient", "statement": "Back-propagating through mean() adds g/numel to each element's gradient, where g is the gradient of the mean's result.", "quantifier": "every graph containing mean", "why_tests_cant": "All upstream gradients; tests only use mean without back-propagation.", "anchors": ["src/INNC/function.cpp:MeanBack::step_back"]}
{"id": "C43", "title": "The gradient of a quotient", "statement": "Back-propagating through a/b adds g/b to a's gradient and -g*(a/b)/b to b's, reducing over broadcast axes, whichever of the two require grad.", "quantifier": "all operands, shapes and flag combinations", "why_tests_cant": "Flag and shape combinations are not all tested.", "anchors": ["src/INNC/function.cpp:DivBack::step_back", "include/INNC/ops.hpp:tensor_div_back_denominator"]}
{"id": "C44", "title": "The gradient of max/min flows to the extreme element", "statement": "max() and min() of a tensor that requires grad succeed on every non-empty tensor and back-propagate the upstream gradient to one position holding the extreme value and 0 elsewhere.", "quantifier": "every non-empty tensor", "why_tests_cant": "The position of the extreme element ranges over the whole tensor, including the first.", "anchors": ["include/INNC/ops.hpp:tensor_max", "src/INNC/tensorImpl.cpp:TensorImpl::max"]}
{"id": "C45", "title": "backward may start from any one-element result, including a view", "statement": "backward() on a one-element slice or reshape of a tensor adds 1 to the gradient of the selected element.", "quantifier": "every one-element view", "why_tests_cant": "All views.", "anchors": ["src/INNC/tensorImpl.cpp:TensorImpl::backward", "src/INNC/function.cpp:NoBack::step_back"]}
{"id": "C46", "title": "A retained gradient of a view is the view's own gradient", "statement": "With retain_grad on a slice, after backward its grad() is the derivative of the root with respect to the slice alone.", "quantifier": "every graph with views", "why_tests_cant": "The view's gradient shares storage with its base's.", "anchors": ["src/INNC/tensorImpl.cpp:share_grad_storage"]}
{"id": "C47", "title": "Memory safety along every history", "statement": "No sequence of API calls on initialised tensors reads or writes outside an allocation, dereferences a null pointer, reads uninitialised memory or reinterprets elements at another type.", "quantifier": "every finite history of API calls", "why_tests_cant": "An invariant over all histories.", "anchors": ["src/INNC/tensorImpl.cpp", "src/INNC/function.cpp", "include/INNC/ops.hpp"]}
{"id": "C48", "title": "stride() reports the strides", "statement": "stride() returns the strides of a tensor of rank at least one.", "quantifier": "every tensor", "why_tests_cant": "Untested function; the claim is about every tensor.", "anchors": ["src/INNC/tensorImpl.cpp:TensorImpl::stride"]}
{"id": "C49", "title": "randn fills a tensor of the requested type", "statement": "randn(sizes, f32|f64) returns a tensor of that type and shape and writes only inside its storage; an integer type throws std::runtime_error.", "quantifier": "every shape", "why_tests_cant": "The float64 path is not tested.", "anchors": ["src/INNC/tensorImpl.cpp:TensorImpl::randn"]}
{"id": "C50", "title": "Unary minus negates, unary plus is the identity", "statement": "-a has a's shape and the elements 0 - a[idx] in type max(i32, type of a); +a is the same tensor object as a.", "quantifier": "every tensor", "why_tests_cant": "All values and types.", "anchors": ["src/INNC/tensorImpl.cpp:TensorImpl::operator-()", "src/INNC/tensorImpl.cpp:TensorImpl::operator+()"]}
{"id": "C51", "title": "Every API call terminates", "statement": "Every API call, in every state a program can reach, returns, throws or runs into undefined behaviour; none loops forever. This includes the element-by-element loops over any shape (also empty shapes and shapes whose element count overflows) and the queue loops of backward().", "quantifier": "every finite history of API calls and every call after it", "why_tests_cant": "Termination over all shapes, layouts and graphs.", "anchors": ["include/INNC/ops.hpp:for_each_sizevec", "src/INNC/tensorImpl.cpp:TensorImpl::backward", "src/INNC/tensorImpl.cpp:refresh_n_outway", "include/INNC/ops.hpp:tensor_sum"]}
{"id": "C52", "title": "backward() changes nothing but gradients", "statement": "Whether backward() returns or throws, every tensor keeps its shape, type, layout, storage, flags and operation; no element of a tensor changes unless it lives in a storage that holds a gradient; a tensor outside the graph of the root keeps its gradient object; and a leaf that already has a gradient keeps the same gradient object (it is updated in place).", "quantifier": "every finite history of API calls and every root", "why_tests_cant": "A test only looks at a few tensors after one backward; the claim is a frame condition over all tensors in all reachable states.", "anchors": ["src/INNC/tensorImpl.cpp:TensorImpl::backward", "src/INNC/function.cpp", "include/INNC/tensorImpl.hpp:TensorImpl::try_accumulate_grad"]}
{"id": "C53", "title": "Reference counting reclaims everything", "statement": "Tensors own their gradient, the operands of the operation they were computed by and the slopes saved by it, all by reference counting. No object ever owns itself, directly or through others. So when variables end, exactly the objects that can no longer be reached from the remaining variables are destroyed, and when the last variable ends everything is: nothing leaks.", "quantifier": "every finite history of API calls (also calls that throw) and every set of remaining variables", "why_tests_cant": "A leak test exercises one graph; a cycle could be formed by any order of operations, backward passes, gradient reads and flag changes.", "anchors": ["include/INNC/tensorImpl.hpp:TensorImpl", "include/INNC/function.hpp:Backward", "include/INNC/function.hpp:KnownGradBack", "src/INNC/tensorImpl.cpp:share_grad_storage", "src/INNC/tensorImpl.cpp:TensorImpl::backward"]}
{"id": "C54", "title": "Destroyed objects never matter", "statement": "What a call returns, throws or prints, and the state of everything a program can reach afterwards, depends only on the objects reachable from the program's variables. Giving back the memory of unreachable objects before every statement, and overwriting it with anything, changes nothing the program can see: no call uses an object after it was destroyed.", "quantifier": "every state, every set of variables, every call on these variables, and every program of calls and ends of variables", "why_tests_cant": "A use after free may go unnoticed in a test, and the claim is about all programs and all contents of freed memory.", "anchors": ["include/INNC/tensorImpl.hpp:TensorImpl", "include/INNC/function.hpp:Backward", "src/INNC/tensorImpl.cpp:TensorImpl::backward", "include/INNC/tensor.hpp:Tensor"]}
{"id": "C55", "title": "Whole programs do what they say", "statement": "A program of calls, copies of handles and assignments has the meaning one gets by composing the meanings of its calls on an abstract memory of blocks, in which tensors are shapes with a map from indices to places, views share a block with their source and += changes the block. It runs without exceptions, and at the end every variable has the type, shape, elements, flag and printed text the meaning says; two variables hold the same object, and two elements are the same place, exactly when it says so.", "quantifier": "every program (finite list of statements over variables) whose calls are defined by the rules of the specification, whatever it calls, in any order, with any aliasing between views", "why_tests_cant": "The rules of single calls compose only if no call disturbs anything another variable sees or breaks what later calls rely on; there are unboundedly many programs and aliasing patterns.", "anchors": ["include/INNC/tensor.hpp: Tensor", "src/INNC/tensorImpl.cpp", "include/INNC/layouts.hpp: StridedLayout"]}
{"id": "C56", "title": "The functions declared noexcept return", "statement": "numel(), is_contiguous(), requires_grad(), retain_grad(), retain_grad(bool), grad(), zero_grad() and release() are declared noexcept, so an exception would end the process. On every tensor of every reachable state they return without exception and without undefined behaviour. The questions change nothing; retain_grad(b) changes that flag only; zero_grad() changes at most the elements of the tensor's gradient; release() empties the storage of the tensor and changes nothing else.", "quantifier": "every finite history of API calls (also calls that throw) and every tensor object that exists then", "why_tests_cant": "A test calls them in a few states; the claim is about every state calls can lead to, including those left by calls that threw halfway.", "anchors": ["include/INNC/tensor.hpp: Tensor (noexcept members)", "src/INNC/tensor.cpp", "src/INNC/tensorImpl.cpp: zero_grad, release", "src/INNC/storage.cpp"]}
{"id": "C57", "title": "Gradients live apart from values", "statement": "As long as a program does not take gradient objects out with grad(), no element of a tensor it holds is at the same place as an element of a gradient, whatever views, reshapes, copies, back-propagations, releases and failing calls it makes. So backward() from any root and zero_grad() on any tensor never change an element of a tensor the program holds.", "quantifier": "every program (finite sequence of calls on its own variables, with exceptions caught) without grad(), every root, every variable", "why_tests_cant": "Views share gradient storage with their base and reshapes may or may not copy, so aliasing depends on the whole history; a test sees a few of them.", "anchors": ["src/INNC/tensorImpl.cpp: share_grad_storage, try_accumulate_update, operator[], transpose, reshape", "src/INNC/function.cpp"]}
{"id": "C58", "title": "Back-propagation does not disturb a program", "statement": "A program may call backward() on any of its variables, any number of times and at any point, with exceptions caught. Unless the behaviour of one of these calls is undefined, the program runs to its end, and types, shapes, elements, flags, identity and sharing of all its variables are those of the same program without the calls. The text of every variable is the listing of its elements.", "quantifier": "every program over the API without grad(), release(), all(), stride() whose calls other than backward() and zero_grad() have a meaning (Spec/Program), and every placement of backward() and zero_grad() calls in it", "why_tests_cant": "A test checks values after one back-propagation; the claim is about every program and every placement of back-propagations, on roots that work, throw half-way or are not roots at all.", "anchors": ["src/INNC/function.cpp: Backward::run, step_back", "src/INNC/tensorImpl.cpp: backward, zero_grad", "src/INNC/tensor.cpp"]}
{"id": "C59", "title": "Training programs are memory safe", "statement": "A program that builds computations, takes views of tensors that require grad, back-propagates, reads and resets gradients and starts over never reads or writes outside an allocation, through a null pointer, outside a vector, uninitialised or at a wrong type, as long as it keeps the stated rules: each graph is back-propagated once; gradients are taken only of tensors that fill their storage (or have a gradient); operands of a quotient require grad and the divisor is not broadcast; grad() is used once the gradient is allocated; and the rules of C47. All its tensors, including the gradients grad() returned, stay in good order, also after calls that throw. Without the rules the claim is false.", "quantifier": "every sequence of permitted calls (including backward, grad, zero_grad and views), over all shapes, types, values and graphs, exceptions caught", "why_tests_cant": "Whether a back-propagation stays inside memory depends on the graph, the strides of every tensor in it and on what earlier calls allocated; a test sees one graph.", "anchors": ["src/INNC/function.cpp: all step_back functions", "src/INNC/tensorImpl.cpp: backward, try_accumulate_update, zero_grad", "src/INNC/tensor.cpp"]}
{"id": "C60", "title": "What a binary operation does for any two shapes", "statement": "For two valid operands of any shapes, layouts and types, a + b, a - b, a * b, a / b and the comparisons do exactly one of three things. Indices of the shape that has the larger size along each axis are visited in row-major order. If each one has an element in both operands and a result, a new tensor of this shape holds the results. If the first index that fails has no element in an operand, std::runtime_error is thrown. If it has both elements but no result (integer overflow, division by zero), the behaviour is undefined. No other tensor changes.", "quantifier": "all operand shapes (compatible or not, with or without empty axes), layouts, element types and values", "why_tests_cant": "The outcome depends on both shapes and on which index fails first; tests sample a few pairs of shapes.", "anchors": ["include/INNC/utils/utils.hpp: apply_no_grad_binary_op, apply_binary_operator, apply_cmp_op", "include/INNC/ops.hpp: tensor_add, tensor_sub, tensor_mul, tensor_div, tensor_lt …", "src/INNC/utils/utils.cpp: broadcast_range, for_each_sizevec", "src/INNC/tensorImpl.cpp: cnt_from_aug_index, operator+ …"]}
{"id": "C61", "title": "What abs, max, min and all do for any view", "statement": "For tensors of any layout, views included: abs() returns the absolute values if every element lies below position numel() of its storage and has an absolute value, and is undefined otherwise. max() (min()) of integers returns the maximum (minimum) of the elements together with the first element of the storage, and is undefined on a storage without elements. all() of integers examines, per element, the byte of the storage whose number is the element's position; for contiguous tensors of two or more 0/1 integers wider than a byte it is always false.", "quantifier": "all shapes, strides, offsets, integer types and values (abs: all types)", "why_tests_cant": "What these functions return depends on the layout of the view and on bytes of the storage that are not elements of the tensor; tests use contiguous tensors.", "anchors": ["src/INNC/tensorImpl.cpp: abs, max, min, all", "include/INNC/ops.hpp: tensor_abs, tensor_max, tensor_min"]}
{"id": "C62", "title": "Results depend on types, shapes and elements only", "statement": "If two tensors have the same type, shape and elements, then +, -, *, /, the comparisons, unary minus, sum, mean, type, clone, cat and to_string do the same with either: they return tensors (a text) with the same type, shape and elements, or throw the same exception, or are undefined for both. Strides, offset, sharing of storage and other tensors in memory make no difference. (max, min and abs are exceptions: see C24, C25, C61 and the counterexamples.)", "quantifier": "all pairs of memories, all layouts of the operands with the same elements, all types, shapes and values", "why_tests_cant": "A layout that gives a different result can be any of the infinitely many views; tests compare a few contiguous tensors.", "anchors": ["src/INNC/tensorImpl.cpp: operator+ …, sum, mean, type, clone, cat, to_string", "include/INNC/ops.hpp: tensor_add …, tensor_sum, tensor_mean, tensor_to_type, tensor_clone"]}
{"id": "C63", "title": "Laws of views", "statement": "A slice of a slice, and a slice of a transposed tensor, is the view with the composed selection, on the same storage. For tensors of equal shape without empty axes, (a op b)[s] and a[s] op b[s] have the same type, shape and elements for arithmetic and comparisons, and so do (a op b).transpose(x, y) and a.transpose(x, y) op b.transpose(x, y). The same holds if one operand z is a scalar, (z op t)[s] and z op t[s], and for negation, (-t)[s] and -(t[s]). A view of a copy is the copy of the view: t.clone()[s] and t[s].clone(), and t.type(d)[s] and t[s].type(d) for a conversion to another type, and so for transpose. Cutting a tensor at any place of any axis into t[:m] and t[m:] and joining the parts with cat gives back the type, shape and elements of t.", "quantifier": "all layouts of the operands, types, shapes and elements below 2^62 bytes, slice texts whose steps and products of a step with a stride fit 64 bits (see C06), axes and cuts", "why_tests_cant": "The laws relate several calls for all slices and all layouts.", "anchors": ["src/INNC/tensorImpl.cpp: operator[], transpose, cat, operator+ …"]}
{"id": "C64", "title": "In-place addition when the operands share memory", "statement": "For any tensors a (not requiring grad) and b, of any shapes and types and with any sharing of memory between them and others, a += b adds the paired elements one by one in row-major order of the broadcast shape, each addition reading what the earlier ones have left in memory. It returns when all are done; at the first index for which an operand has no element it throws and keeps the additions done so far; it is undefined only if a sum has no value. Elements of any tensor at a place of a show the new value, all others are unchanged. Hence x += x doubles, rows of one matrix can be added to each other, x[\":-1\"] += x[\"1:\"] adds the old values, and x[\"1:\"] += x[\":-1\"] leaves the running sums in x.", "quantifier": "all memories, all pairs of tensors, shapes (compatible or not), types, elements and overlaps", "why_tests_cant": "Overlaps are as many as pairs of views; results depend on the order of the additions.", "anchors": ["src/INNC/tensorImpl.cpp: operator+=", "include/INNC/ops.hpp: tensor_add, for_each_sizevec", "include/INNC/layouts.hpp: cnt_from_aug_index"]}
{"id": "C65", "title": "Laws of concatenation and reshape", "statement": "Reshaping twice gives the same tensor as reshaping once to the last shape; reshaping there and back restores the shape and the elements. cat of one tensor has its elements. Joining some neighbours first, cat(xs, cat(ys), zs), gives the same type, shape and elements as cat(xs, ys, zs), except that an element may be rounded twice if it is converted from an integer to float to double. The segment of a concatenation that belongs to an operand is that operand. cat(ts).transpose(d, e) is cat of the transposed tensors along the other axis. Element-wise arithmetic on concatenations is the concatenation of the arithmetic on the parts. For tensors of equal shape without empty axes, (a op b).reshape(s) and a.reshape(s) op b.reshape(s) have the same type, shape and elements, for arithmetic and comparisons. So do (z op t).reshape(s) and z op t.reshape(s) for a scalar z, and (-t).reshape(s) and -(t.reshape(s)). The same holds for clone() and for type(d).", "quantifier": "all memories, tensors (views included), shapes without empty axes, numbers of operands and ways to group them", "why_tests_cant": "Chains of calls: the laws relate two different programs for every number of operands, axis and layout.", "anchors": ["src/INNC/tensorImpl.cpp: cat, reshape, transpose, operator[]", "include/INNC/ops.hpp: tensor_cat"]}
{"id": "C66", "title": "Floats are handled only through the operations of the float arithmetic", "statement": "What a program does with floats is composed of the operations of the float arithmetic. If the same calls are run over two float arithmetics on related data, and related operands have related results, then the runs return the same tensors and throw the same exceptions, leave tensors with the same shapes, flags and graphs, the same integers and related floats, and one is free of undefined behaviour if the other is (for calls that compare or print floats: if comparisons or texts of related floats agree). In particular everything but the floats themselves can be found by running the calls with all floats erased, so replies, shapes, flags and integer elements do not depend on the float data.", "quantifier": "all pairs of float arithmetics and preserved relations, all lists of calls (backward, in-place updates and throwing calls included), all states", "why_tests_cant": "Relates runs over all data and all float formats; tests run on one platform with some data.", "anchors": ["include/INNC: all headers", "src/INNC: all sources"]}
{"id": "C67", "title": "Rounding errors of results and gradients", "statement": "Let float arithmetic follow the standard model (relative error u per operation, absolute error where results underflow, exact if representable, no overflow). For every list of calls, running it over balls yields, without undefined behaviour of the float run, a bound for every float element of every tensor, gradients included, on its distance from the element the same calls compute in exact arithmetic on the same data; for backward() this bounds the distance of the computed gradient from the true gradient (C38). The sum of n floats is within ((1+u)^n - 1) times the sum of absolute values of the exact sum; the mean within ((1+u)^(n+1) - 1) times the mean of absolute values; sums whose partial sums are representable are exact. IEEE 754 arithmetic (binary32 and binary64, round to nearest even, subnormals, infinities, NaN) follows the standard model, so this holds of it; sums of integer-valued elements are exact while the absolute values add up to less than 2^53.", "quantifier": "all float arithmetics that follow the standard model, all lists of calls without comparison of floats, conversion of floats to integers, and printing, all data", "why_tests_cant": "Rounding errors depend on all data and on the order of operations; tests see a few values and choose tolerances.", "anchors": ["include/INNC/ops.hpp", "src/INNC/function.cpp", "src/INNC/tensorImpl.cpp: sum, mean, backward"]}
{"id": "C68", "title": "Elements are numbers of the element type of their tensor", "statement": "Float elements reach a tensor only as results of operations carried out in the tensor's type, or converted to it: if, for each element type, a set of floats is closed under conversion to the type and the operations in it, and contains all floats the program passes in, then after any sequence of calls every float element of every tensor, gradients included, is in the set of the tensor's type. For IEEE floats: every element of an f32 tensor is a binary32 number and every element of an f64 tensor a binary64 number; hence converting an f32 tensor to f64 keeps all elements exactly and converting back restores them.", "quantifier": "all float arithmetics and closed sets of floats, all lists of calls without undefined behaviour, all tensors and indices; for IEEE all programs that pass in floats and doubles", "why_tests_cant": "Quantifies over all histories and all data; a test cannot see extra precision that only appears for some values.", "anchors": ["include/INNC/ops.hpp", "src/INNC/tensorImpl.cpp: full, from_blob, randn, type, backward", "include/INNC/types.hpp"]}
{"id": "C69", "title": "Gradient descent works", "statement": "A training loop written with the library performs gradient descent. Computing a loss, loss.backward(), and for every parameter w.detach() += w.grad() * rate and w.zero_grad() returns, can be repeated any number of times, and changes every parameter by rate times the partial derivative of the loss with respect to it at each step; data and learning rate keep their elements and all gradients are zero again after each step. For the loss ((w * x - y) * (w * x - y)).sum() every step multiplies each residual w x - y by 1 + 2 rate x^2.", "quantifier": "all programs that compute a loss with partial derivatives from the parameters (in the sense of C38), all numbers of steps, all shapes, any number of parameters on storages of their own, all values of parameters, data and learning rate; float arithmetic exact", "why_tests_cant": "A test sees a few steps of one network; stale counters, gradients that are not reset or views that are updated in a copy show only after further steps or for other graphs.", "anchors": ["src/INNC/tensorImpl.cpp: TensorImpl::backward, zero_grad, operator+=, detach", "src/INNC/backward.cpp", "include/INNC/tensor.hpp"]}
{"id": "C70", "title": "The text of shapes", "statement": "size().to_string() (and std::cout << size()) is the list of the sizes in decimal, in order, separated by \", \", in square brackets; two tensors whose sizes print alike have the same shape. Lists of signed numbers print in the same way and are determined by their text.", "quantifier": "all tensors of all shapes (zero-dimensional and empty ones included), all lists of signed numbers", "why_tests_cant": "A test compares a few literals; that no two shapes share a text, and the first/later element distinction of the loop, concern every list.", "anchors": ["src/INNC/types.cpp: iter_to_string, SizeVec::to_string, SignedVec::to_string, operator<<"]}
{"id": "C71", "title": "Programs with loops, branches and caught exceptions do what they say", "statement": "A program that chooses its next call by what it has learned - the text, size, type or number of elements of a tensor, whether it requires grad, all() of a comparison - that loops, and that catches exceptions, can be reasoned about on the abstract memory of C55: an invariant that every action keeps there holds of the library's state after every number of steps, no exception escapes and (without backward()) nothing is undefined; if a measure decreases as well, the program stops. A call that throws for one of the listed reasons (shapes that do not broadcast, wrong axes, wrong sizes, ragged lists, integer tensors that would require grad, ...) leaves every tensor as it was.", "quantifier": "all programs given as a map from control points to actions (commands, calls in try blocks, questions whose answer chooses the next control point), all invariants, all numbers of steps, all float arithmetics", "why_tests_cant": "A test runs one path through the program; a loop has unboundedly many, and what a caught exception leaves behind has to be right for every state it is thrown in.", "anchors": ["src/INNC/tensor.hpp: Tensor", "src/INNC/tensor.cpp: Tensor", "src/INNC/tensorImpl.cpp: TensorImpl"]}
{"id": "C72", "title": "Variables of type Tensor: references, moves and empty tensors", "statement": "A Tensor variable refers to a tensor: moving from it (Tensor b = std::move(a), b = std::move(a)) transfers the tensor, leaves the source empty and changes nothing else. A program that does not use empty variables behaves the same - same exceptions, same elements, same texts - whether it moves or copies, so what C55, C58 and C71 say of programs holds for programs with moves. A call on an empty variable (declared without a value, moved from, grad() of a tensor without a gradient) never returns and never changes anything; only to_string() is allowed, which gives \"[]\".", "quantifier": "all programs of declarations, assignments, moves, calls and try blocks over any number of variables; all calls of the API with an empty argument in any position; all float arithmetics", "why_tests_cant": "That no call accepts an empty tensor silently, and that no program can tell a move from a copy, concerns every call and every program, not a sample.", "anchors": ["include/INNC/tensor.hpp: Tensor", "src/INNC/tensor.cpp: Tensor::Tensor, Tensor::operator=, Tensor::to_string, Tensor::grad, Tensor::cat"]}
{"id": "C73", "title": "Which elements backward() looks at", "statement": "What backward() does to gradients depends on the elements, at the time of the call, of: gradients already there; a factor of a product whose other factor requires grad; the denominator and the result of a quotient; the slopes recorded by abs(), max() and min(). It depends on no other elements and does not write to them. So in-place changes made between the operations and backward() matter only if they reach one of these; in a computation of sums, differences, means, sum(), clones and views they never do. A factor does matter: changing y after x * y was computed changes the gradient of x.", "quantifier": "every state reached by any history of calls, every tensor backward() is called on, every pair of states that differ in elements that are not listed, every sequence of += on one storage (completed or ended by an exception), every float arithmetic", "why_tests_cant": "It says that a result does not depend on something, in all graphs and for all contents; a test compares two runs of one program.", "anchors": ["src/INNC/tensorImpl.cpp: TensorImpl::backward", "src/INNC/tensor.cpp: Tensor::operator+=", "src/INNC/function.cpp: Backward::try_accumulate_grad, AddBack, SubBack, MulBack, DivBack, SumBack, MeanBack, NoBack, CloneBack, CatBack, KnownGradBack (step_back)"]}
{"id": "C74", "title": "Computations that share no tensor do not influence each other", "statement": "Two programs that use the library in one process, each with variables of its own, may take turns in any way, call by call, and each gets exactly what it gets alone: the same tensors in the same variables (type, shape, elements, flags, gradients), the same empty variables, the same sharing between its variables. This holds although they share the counter of back-propagations and the visit marks of backward(). In particular, what was done before in the process, whatever it was, has no influence on a new computation, and a computation leaves every tensor that it was not given exactly as it was. Exceptions are the same too. And if the two end with an exception or with undefined behaviour, one of them does so alone.", "quantifier": "every pair of programs (lists of statements with variables: declarations, copies, moves, assignments, every call of the interface, calls whose exceptions are caught), every interleaving of their statements; every state of the process before; every float arithmetic and every sequence of random numbers (each program is given its own)", "why_tests_cant": "It quantifies over all interleavings of all pairs of programs; a test runs a few schedules of a few programs, usually in a new process.", "anchors": ["src/INNC/function.cpp: Backward::global_back_version", "src/INNC/tensorImpl.cpp: TensorImpl::backward, refresh_n_outway", "include/INNC/function.hpp: Backward (back_version, n_outway, acc_outway)", "src/INNC/tensor.cpp"]}
{"id": "C75", "title": "Looking at tensors does not influence a program", "statement": "Code that only looks at the tensors of a program - prints them, compares them, converts, detaches and copies them, computes with them, with or without recording, adds them into totals of its own, takes views of tensors that do not require grad or already have a gradient, tries calls that throw - can be put anywhere between the statements of the program, and the program does not notice: at every point its variables hold what they hold without that code (type, shape, elements, flags, gradients, empty variables, sharing), and its next call, backward() among them, returns, throws or is undefined exactly as without it. The first view of a tensor that requires grad is noticed: it gives that tensor a gradient of zeros.", "quantifier": "every program (list of statements, every call of the interface), every observer and every way of putting its calls between the statements of the program; every float arithmetic", "why_tests_cant": "It quantifies over all programs, all observers and all places; the counters that backward() uses are shared with the nodes the observer adds to the graph, so that a test of a few prints says nothing about the next program.", "anchors": ["src/INNC/tensor.cpp", "src/INNC/tensorImpl.cpp: TensorImpl::backward, to_string, detach, create_view", "src/INNC/function.cpp: Backward::Backward, refresh_n_outway", "include/INNC/function.hpp: Backward (n_outway, acc_outway, back_version)"]}
{"id": "C76", "title": "The order of evaluation does not matter", "statement": "C++ leaves open in which order the operands of f(a, b) or a + b are evaluated. Two computations on the same variables, each of which computes with the tensors of the program but changes only tensors of its own, may be done in either order: both orders return, the variables hold the same tensors afterwards (type, shape, elements, flags, gradients, sharing), and whatever the program does next with the results - backward() through both, += into them, anything - ends alike: with the same tensors, the same exception, or the same undefined behaviour. If one of the two fails, it fails in both orders. A computation whose results are not used can be left out.", "quantifier": "every program before, every pair of computations (lists of statements that only look at the tensors of the program, see C75), every program after; every float arithmetic and every sequence of random numbers (each call of randn() is given its own)", "why_tests_cant": "It quantifies over all pairs of computations and all programs around them; a compiler picks one order, so a test sees only that one.", "anchors": ["src/INNC/tensor.cpp", "src/INNC/tensorImpl.cpp", "src/INNC/function.cpp: Backward::Backward", "include/INNC/function.hpp: Backward"]}
{"id": "C77", "title": "Laws of sums and means", "statement": "sum() and mean() do not depend on how the elements are arranged, as far as the arithmetic allows. Reshaping a tensor (with at least one axis) to another shape (with at least one axis) changes neither its sum nor its mean, for every element type, including when they are undefined. A tensor of integers and its transpose have the same sum and mean. The sum of a concatenation of integer tensors is the sum of their sums. The sum of a + b is the sum of a plus the sum of b for integers of 32 and 64 bits. If the absolute values of the integers add up to less than 2^63, the sum returns whatever the order of the elements. Not guaranteed: that the sum of a transpose returns because the sum of the tensor does (a partial sum may overflow in one order only); that floating-point sums of a tensor and its transpose agree; that 8- and 16-bit additions distribute.", "quantifier": "every history, every tensor that reads valid elements (also strided views), every shape, element type, axes and number of concatenated tensors", "why_tests_cant": "A test sees a few tensors; rearrangement laws relate all shapes, and the exceptions only show for particular values in particular orders.", "anchors": ["src/INNC/tensor.cpp: Tensor::sum, Tensor::mean, Tensor::reshape, Tensor::transpose, Tensor::cat", "src/INNC/tensorImpl.cpp: apply_binary_operator, TensorImpl::sum, TensorImpl::mean, TensorImpl::cat"]}
{"id": "C78", "title": "Algebra with tensors of integers", "statement": "Expressions built with +, - and * from integer tensors of one type, of any shapes that broadcast, obey the laws of arithmetic. Such an expression either has undefined behaviour (a signed overflow) or returns a tensor of that type and of the broadcast shape whose elements are the exact values of the expression, reduced to the width of the type once; so two expressions in the same variables that are equal as polynomials ((a + b) * (a - b) and a * a - b * b; any regrouping, reordering or expansion) give equal tensors, of the same shape, whenever both return. With 8 and 16 bits they always return. With 32 and 64 bits an expression returns exactly if the exact value of every part of it fits in the type at every index, and the elements are then the exact values. Not guaranteed: that one of two equal expressions returns because the other does (32 and 64 bits); the laws for operands of different integer types; the laws for floats. The sum of such an expression, if it returns, is the exact sum of its elements, so expressions that are equal as polynomials have equal sums; if every part fits and the absolute values of the elements add up to less than 2^63, the sum (for example a dot product) returns and is exact.", "quantifier": "every expression (any depth, any number of variables), every pair of polynomially equal expressions, every integer type, all shapes that broadcast (no axis of size 1 against an empty one), all elements, every state in which the variables are tensors that read valid elements (also strided views, also the same tensor for several variables)", "why_tests_cant": "Expressions are unboundedly deep and the wrap-around of intermediate results interacts with promotion to int; a test fixes one expression and a few values.", "anchors": ["src/INNC/tensorImpl.cpp: operator+, operator-, operator*, apply_binary_operator", "include/INNC/ops.hpp: tensor_add, tensor_sub, tensor_mul"]}
{"id": "C79", "title": "Checks and counts written with comparisons", "statement": "The sum of a comparison of two tensors is the number of positions of the result at which the comparison holds; it throws only if the shapes do not broadcast, and is never undefined. For integers the numbers of positions with <, == and > add up to the number of elements. For integer tensors of the same shape, (a == b).all() is true exactly if a and b have the same elements. For every integer tensor or view v that does not require grad, (v.max() >= v).all() and (v.min() <= v).all() are true, wherever the view starts in its storage. The mean of a non-empty integer tensor, whenever it returns, lies between every lower and every upper bound of the elements.", "quantifier": "all heaps, all tensors and views, all element types (count) or all integer types (the other laws), all shapes, all six comparisons, all element values", "why_tests_cant": "The laws relate whole calls on arbitrary tensors; a test checks them for a few values, and the cases where max of a view is wrong in value but still an upper bound are not visible in examples.", "anchors": ["include/INNC/ops.hpp: tensor_max, tensor_min, tensor_sum, compare operators", "src/INNC/tensorImpl.cpp: TensorImpl::max, TensorImpl::min, TensorImpl::all, TensorImpl::sum, TensorImpl::mean"]}
{"id": "C80", "title": "Whole numbers in tensors of floats", "statement": "Tensors of IEEE floats that hold whole numbers compute exactly. An expression built with +, - and * from float tensors of one type, of shapes that broadcast, whose variables hold whole numbers, returns a tensor of the broadcast shape whose elements are the exact values, without rounding, as long as the exact value of every part stays below 2^24 (f32) or 2^53 (f64) in absolute value; so two expressions in the same variables that are equal as polynomials give tensors with equal elements (equal as floats: the sign of a zero may differ). Comparing such tensors is comparing the numbers. A tensor of integers below these bounds, converted to float and back, has the elements it had. The sum of such a tensor or expression (for example a dot product) is exact if the absolute values of the elements add up to less than 2^53, and the tensor and its transpose then have equal sums. A quotient of two such tensors is exact where the division leaves no remainder, and so is the mean. Sums, differences, products and comparisons of such a tensor with a tensor of integers, or with floats of the other format, are exact under the same bound for the type of the result.", "quantifier": "all heaps, all expressions (any size), all numbers of variables, all shapes that broadcast, all whole numbers within the bounds, both float types, all integer types (conversion)", "why_tests_cant": "The claim is about every expression, every shape and every combination of up to 2^53 values; rounding errors hide in values a test does not try.", "anchors": ["include/INNC/ops.hpp: tensor_add, tensor_sub, tensor_mul, tensor_to_type, compare operators", "src/INNC/tensorImpl.cpp: TensorImpl::operator+, -, *, TensorImpl::type"]}
