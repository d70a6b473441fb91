{
 "C04": {
  "status": "partial",
  "note": "numel is the product modulo 2^64 and exact below 2^64; the silent overflow of larger shapes is proved (C04_numel_overflow)."
 },
 "C14": {
  "status": "partial",
  "note": "All broadcast-compatible shapes except those in which an axis of size 1 meets an axis of size 0; there the library throws (C14_empty_axis). C60 says what happens for every pair of shapes."
 },
 "C15": {
  "status": "partial",
  "note": "Shapes without an empty axis. With an empty axis incompatible shapes are accepted (C15_empty_axis_accepted). C60_rejected says exactly which pairs of shapes are rejected."
 },
 "C16": {
  "note": "For every state in which the operation returns."
 },
 "C17": {
  "status": "proved",
  "note": "C17_elements: each element of any returned result. C17_undefined: the only undefined cases. C17_no_element: they are undefined. For any two shapes; the byte size of the result is below 2^63."
 },
 "C18": {
  "status": "proved",
  "note": "For any two shapes; commutation of + and * of two floats is an assumption on the float arithmetic (FComm), true of IEEE up to NaN payloads."
 },
 "C20": {
  "note": "Operands that need no stretched axes of size 0 against 1; NaN behaviour follows the abstract float comparison. C60_compare: all shapes."
 },
 "C21": {
  "note": "Proved for i8 tensors of zeros and ones, as comparisons return; the claim is false for wider types and undefined for other bytes (witness theorems). C61 says what happens for every view."
 },
 "C22": {
  "note": "Any element type, shape and strides; integer overflow is undefined behaviour and characterised."
 },
 "C23": {
  "note": "Any element type, shape and strides."
 },
 "C24": {
  "note": "Views starting at their storage's first element, without gradients; false otherwise (witness theorems). C61 says what happens for every view."
 },
 "C25": {
  "note": "Views whose elements lie below numel; false for other views (witness theorem). C61 says what happens for every view."
 },
 "C06": {
  "status": "partial",
  "note": "Proved for every axis size, start, stop and non-zero step such that the step is not -2^63 and step*stride fits 64 bits; outside that the code has signed overflow (C06_huge_step_undefined, C06_least_step_undefined). A zero step throws on every non-empty axis; on an empty axis it is accepted (C06_zero_step_of_empty_axis)."
 },
 "C07": {
  "status": "partial",
  "note": "Every spelling of every specification is read back exactly (same 64-bit proviso on steps as C06). Rejection of too many parts and of non-numeric index, step and start is proved; text after a number, a stop that is not needed and a fourth part are accepted by the code (three counterexample theorems)."
 },
 "C11": {
  "status": "partial",
  "note": "Proved for all strided inputs and requests, except tensors that require grad when exactly one of the shapes is the scalar shape; that case, products overflowing 2^64 and negative sizes are shown to misbehave by counterexample theorems."
 },
 "C12": {
  "status": "partial",
  "note": "Success, divisibility and double -1 proved; excludes a scalar that requires grad (see C11). A zero beside -1 is division by zero (C12_zero_undefined)."
 },
 "C13": {
  "status": "partial",
  "note": "Exact characterisation for tensors whose number of elements is not one; false for one element (C13_one_element_shared)."
 },
 "C19": {
  "note": "All computing functions at once, as a classification of API calls; views, flags and queries separately; gradient buffers are storages too, so Extends covers them."
 },
 "C30": {
  "note": "Independence is stated for any number of later += on either storage, including ones that throw half-way."
 },
 "C33": {
  "note": "Every call except += and backward leaves all tensors as they were. Of += the claim is false (C33_add_assign_changes); C33_add_assign_elsewhere says what remains, C64_effect exactly what changes. For backward past its guards: C33_backward_values (variables of programs without grad()); gradients may change."
 },
 "C34": {
  "note": "Induction over all histories of API calls, including calls that throw."
 },
 "C35": {
  "note": "For every reachable state and every call of the API."
 },
 "C36": {
  "note": "numel() is the wrapping product the code computes; C04 relates it to the true number of elements."
 },
 "C41": {
  "status": "partial",
  "note": "Zeroing and independence of other storages are proved; the claim about other gradients is false for views (C41_view_clears_base)."
 },
 "C48": {
  "status": "partial",
  "note": "The property is false of the code: stride() throws on every tensor, which is what is proved."
 },
 "C49": {
  "status": "partial",
  "note": "f32 and integer types proved; f64 writes out of bounds for every non-empty shape (C49_f64_out_of_bounds)."
 },
 "C09": {
  "status": "proved",
  "note": "For any target whose elements lie at different places, and concretely for the views that slice and transpose return (C09_view, with the index map of C05-C07 and C10). Like the code, requires that the target does not require grad. Operands on one storage: C64."
 },
 "C28": {
  "note": "Empty inner lists and the empty list are undefined behaviour (witness C28_empty_undefined)."
 },
 "C29": {
  "note": "Empty list of tensors is an out-of-bounds vector access (witness C29_empty_undefined)."
 },
 "C31": {
  "status": "proved",
  "note": "Exact text for every addressable tensor; equal texts imply equal shapes and element texts for non-empty shapes."
 },
 "C32": {
  "status": "proved",
  "note": "Different storages, target elements at different places, shapes whose broadcast does not stretch an axis of size 1 to 0. Partial writes before an exception are covered by C33. Operands on one storage and shapes that do not fit: C64."
 },
 "C37": {
  "note": "For every history of API calls; the order is stated as an equation between backward() and a run over an explicit schedule."
 },
 "C39": {
  "status": "partial",
  "note": "False of the code when results share operations: arrival counts are never reset (two kernel-checked counterexamples). C39_again: for every graph and every continuation of the program, a second backward() on the same result is exactly one propagation step, from the result to its direct operands; C39_stuck: so it changes no gradient and no element elsewhere. C39_shared: the same for two results s and t that share intermediate results: what backward() on s went through, and t uses no more often, stops backward() on t, so that leaves get nothing through it. C39_separate_partial: for any list of results, of any program that computes with variables, that share only leaves, backward() on all of them adds the sum of the partial derivatives to every leaf. C39_repeat_partial: a result computed from leaves by one operation can be back-propagated any number n of times, which adds n times the derivative (so together with C39_again the case of the same tensor is settled for every graph)."
 },
 "C40": {
  "note": "Proved for every graph no part of which was back-propagated before (in particular every program before its first backward()); false otherwise, with a counterexample."
 },
 "C51": {
  "note": "Loops of the model carry fuel; running out of it is proved impossible for all histories."
 },
 "C42": {
  "status": "partial",
  "note": "False of the code: mean() ignores the gradient of its result. C42_inside gives, for every program of the fragment of C38 with means anywhere in it, what backward() computes instead: the derivative with the inner means held constant plus the derivative of every inner mean, each counted once with factor 1. C42_any_use: whatever is computed from the mean of a leaf, its gradient grows by 1/numel. C42_ignores_upstream_partial is a concrete counterexample. C42_last_partial: where mean() is the last operation the gradient is right for every program."
 },
 "C43": {
  "status": "partial",
  "note": "False of the code. For every program: if a result depends on a quotient with a constant operand (C43_constant_operand), with a denominator of integer type (C43_integer), or with a leaf denominator of another rank than the quotient (C43_lower_rank), backward() never returns; five runs show which undefined or throwing outcome occurs, also for broadcast denominators of the same rank. C43_rule_partial: the quotient rule where both operands require grad and the denominator has the shape of the result, for every gradient of the quotient."
 },
 "C44": {
  "status": "partial",
  "note": "False of the code: throws if the extreme is the first element, wrong value for views (counterexample theorems). C44_returns_partial says exactly when they return; C44_rule_partial: where they do, the gradient goes to one position that holds the extreme."
 },
 "C45": {
  "status": "partial",
  "note": "False of the code, for every program: backward() on a one-element view that requires grad returns and leaves the gradient of every leaf as it was, whatever the derivative (C45_never); two concrete programs as counterexamples."
 },
 "C46": {
  "status": "partial",
  "note": "False of the code: the retained gradient of a view aliases the base's gradient (counterexample theorem C46_other_uses). C46_shared proves, for every program of the fragment of C38, what the gradient of a retained view is instead: the gradient of its base read through the view, so all uses of the base are counted."
 },
 "C38": {
  "status": "partial",
  "note": "C38_program_partial: every program that computes with variables by the listed operations (and quotients and means where the library is right) and interleaves backward(), zero_grad(), grad() and += the way a training loop does; then backward(): gradients of all leaves grow by the exact partial derivatives, defined by dual numbers. Missing: programs that reuse results already back-propagated (C39, false) or computed from elements changed since. Rounding: C67_gradient. C38_weighted_partial: the same for results of any shape with arbitrary weights (the product of a gradient with the Jacobian). C38_changed_partial (Props/Consult): elements that backward() does not read (C73) may have been changed since; the gradients are still the derivatives of the computation as it was carried out. C38_current_partial, C38_added_partial (Props/Tangent): elements that backward() does read may have been changed since as well; the library then applies the differentiation rules with the factors, divisors and slopes as they are when backward() is called, and the gradients are exactly the derivative obtained in that way."
 },
 "C08": {
  "status": "partial",
  "note": "Proved for every chain of slices, transposes, reshapes and detaches from any tensor in good order, in every state a program can reach. False, with witnesses, for reshape sizes below -1 and for sizes whose product overflows 64 bits; reshape between scalars and other shapes while grad is required is excluded as well (see C11)."
 },
 "C47": {
  "status": "partial",
  "note": "Proved for every history of calls on tensors returned by earlier calls, except backward(), grad(), release(), uninitialised tensors, and the argument conditions in Spec/Memory.Allowed (sizes below 2^62 bytes, abs only on dense layouts, max/min only on non-empty tensors, and so on). Witness theorems show that the excluded calls do go wrong. backward() and grad() are added in C59. Back-propagation through C38's programs is shown to return, hence to have no undefined behaviour, in the theorems of C38."
 },
 "C53": {
  "note": "Histories are arbitrary lists of API calls that return or throw. Ownership edges are those of shared_ptr and unique_ptr members (Spec/Lifetime.Owns). Recursion depth of destructors is not modelled."
 },
 "C54": {
  "note": "The state is arbitrary; C54_call covers one call, C54_program whole programs, C54_read the values returned by to_string() and all()."
 },
 "C55": {
  "status": "partial",
  "note": "Rule (Spec/Program) gives every call its meaning where the library keeps its promise; programs with grad(), release(), all(), stride() or uninitialised tensors have no meaning there; backward() is added in C58. C55_text_partial adds what to_string() prints at the end. abs(), max() and min() have rules for tensors that require grad too; for max() and min() of such tensors the first element must not be the extremum (see C44)."
 },
 "C56": {
  "note": "Handles are those of existing tensor objects; an empty or moved-from Tensor (null pointer) is not one. is_contiguous reads the stride vector; that it has enough entries is part of C47 (Sound) for careful programs."
 },
 "C57": {
  "note": "C57_grad_moves shows why grad() is excluded: the object it returns is the gradient itself. Elements are those of Denotes (initialised tensors)."
 },
 "C59": {
  "note": "The rules are those of Spec/Train (Permitted) and Spec/Memory (Allowed); the theorems C59_view_of_strided, C59_unallocated_gradient, C47_backward_strided_leaf, C47_backward_view_again and those of C43 and C45 show that the claim is false without them. Not in such programs: release() and uninitialised tensors."
 },
 "C62": {
  "note": "max, min and abs are outside the claim because they depend on the layout: C62_layout_dependent."
 },
 "C73": {
  "note": "C73_reads is the general statement; C73_edits and C73_linear are its cases for += and for graphs of sums. C73_factor shows by one program that the elements of a factor are taken when backward() is called, not when the product is computed."
 },
 "C74": {
  "note": "C74_interleaved is the statement about two programs; C74_any_state compares a new process with an arbitrary state (not only reachable ones) and says that the state is left alone; C74_throws is about exceptions that are not caught. Turns change between calls, not within one: the library has no threads. C74_undefined and C74_blame are the converse: undefined behaviour and exceptions of the joint run are those of one program alone. The random numbers that randn() draws are parameters of the calls."
 },
 "C75": {
  "note": "The observer may not add in place to memory of the program, set flags of its tensors, call zero_grad(), backward() or release(), or take the first view of a tensor that requires grad (C75_view_noticed shows that it is noticed). It may use differentiable operations on the tensors of the program; these add nodes to the graph, which backward() of the program does not see."
 },
 "C76": {
  "note": "The two computations must not change tensors of the program (the calls of an observer in C75), and views of tensors that require grad must be taken of tensors that have a gradient already. Each works on copies of the variables."
 },
 "C77": {
  "status": "partial",
  "note": "Proved: reshape (C77_reshape_partial, every type), transpose (C77_transpose_partial, integers), concatenation, addition, C77_small. False in general and witnessed: C77_overflow_order, C77_float_order, C77_narrow_add. Scalars are excluded from the reshape law (a scalar's sum converts its element instead of adding it to 0)."
 },
 "C79": {
  "note": "Tensors with fewer than 2^63 elements. Witnesses: C79_view_wrong (max of a view need not be one of its elements), C79_not_a_number (a == a fails for NaN)."
 },
 "C80": {
  "note": "For the IEEE instance of the float arithmetic (Spec/Ieee.lean); shapes in which no axis of size 1 meets an empty one (C14_empty_axis). Witnesses: C80_too_large, C80_zero_sign."
 }
}