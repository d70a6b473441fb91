{
 "claims": [
  {
   "property": "C01",
   "status": "proved",
   "theorems": [
    "INNC.C01_traversal",
    "INNC.C01_degenerate",
    "INNC.C01_sum_traversal"
   ],
   "note": ""
  },
  {
   "property": "C02",
   "status": "proved",
   "theorems": [
    "INNC.C02_fresh_bijective"
   ],
   "note": ""
  },
  {
   "property": "C03",
   "status": "proved",
   "theorems": [
    "INNC.C03_contiguous_iff",
    "INNC.C03_contiguous_exact",
    "INNC.C03_contiguous_position",
    "INNC.C03_fresh_contiguous"
   ],
   "note": ""
  },
  {
   "property": "C04",
   "status": "partial",
   "theorems": [
    "INNC.C04_numel_mod",
    "INNC.C04_numel_partial",
    "INNC.C04_numel_overflow"
   ],
   "note": "numel is the product modulo 2^64 and exact below 2^64; the silent overflow of larger shapes is proved (C04_numel_overflow)."
  },
  {
   "property": "C05",
   "status": "proved",
   "theorems": [
    "INNC.C05_index",
    "INNC.C05_out_of_range"
   ],
   "note": ""
  },
  {
   "property": "C06",
   "status": "partial",
   "theorems": [
    "INNC.C06_range_partial",
    "INNC.C06_positions",
    "INNC.C06_zero_step",
    "INNC.C06_huge_step_undefined",
    "INNC.C06_least_step_undefined",
    "INNC.C06_zero_step_of_empty_axis"
   ],
   "note": "Proved for every axis size, start, stop and non-zero step such that the step is not -2^63 and step*stride fits 64 bits; outside that the code has signed overflow (C06_huge_step_undefined, C06_least_step_undefined). A zero step throws on every non-empty axis; on an empty axis it is accepted (C06_zero_step_of_empty_axis)."
  },
  {
   "property": "C07",
   "status": "partial",
   "theorems": [
    "INNC.C07_slice_partial",
    "INNC.C07_every_specification_has_a_spelling",
    "INNC.C07_too_many_parts",
    "INNC.C07_index_not_a_number",
    "INNC.C07_step_not_a_number",
    "INNC.C07_start_not_a_number",
    "INNC.C07_trailing_text_ignored",
    "INNC.C07_unread_part_accepted",
    "INNC.C07_fourth_part_ignored"
   ],
   "note": "Every spelling of every specification is read back exactly (same 64-bit proviso on steps as C06). Rejection of too many parts and of non-numeric index, step and start is proved; text after a number, a stop that is not needed and a fourth part are accepted by the code (three counterexample theorems)."
  },
  {
   "property": "C08",
   "status": "partial",
   "theorems": [
    "INNC.C08_chain_partial",
    "INNC.C08_views_partial",
    "INNC.C08_reshape_overflow",
    "INNC.C08_reshape_negative"
   ],
   "note": "Proved for every chain of slices, transposes, reshapes and detaches from any tensor in good order, in every state a program can reach. False, with witnesses, for reshape sizes below -1 and for sizes whose product overflows 64 bits; reshape between scalars and other shapes while grad is required is excluded as well (see C11)."
  },
  {
   "property": "C09",
   "status": "proved",
   "theorems": [
    "INNC.C09_alias",
    "INNC.C09_view"
   ],
   "note": "For any target whose elements lie at different places, and concretely for the views that slice and transpose return (C09_view, with the index map of C05-C07 and C10). Like the code, requires that the target does not require grad. Operands on one storage: C64."
  },
  {
   "property": "C10",
   "status": "proved",
   "theorems": [
    "INNC.C10_transpose",
    "INNC.C10_involution",
    "INNC.C10_rejected"
   ],
   "note": ""
  },
  {
   "property": "C11",
   "status": "partial",
   "theorems": [
    "INNC.C11_reshape_partial",
    "INNC.C11_rejected_partial",
    "INNC.C11_overflow_accepted",
    "INNC.C11_scalar_grad_undefined",
    "INNC.C11_negative_accepted"
   ],
   "note": "Proved for all strided inputs and requests, except tensors that require grad when exactly one of the shapes is the scalar shape; that case, products overflowing 2^64 and negative sizes are shown to misbehave by counterexample theorems."
  },
  {
   "property": "C12",
   "status": "partial",
   "theorems": [
    "INNC.C12_infer_partial",
    "INNC.C12_indivisible",
    "INNC.C12_two_unknowns",
    "INNC.C12_zero_undefined"
   ],
   "note": "Success, divisibility and double -1 proved; excludes a scalar that requires grad (see C11). A zero beside -1 is division by zero (C12_zero_undefined)."
  },
  {
   "property": "C13",
   "status": "partial",
   "theorems": [
    "INNC.C13_sharing_partial",
    "INNC.C13_one_element_shared"
   ],
   "note": "Exact characterisation for tensors whose number of elements is not one; false for one element (C13_one_element_shared)."
  },
  {
   "property": "C14",
   "status": "partial",
   "theorems": [
    "INNC.C14_arith_partial",
    "INNC.C14_empty_axis"
   ],
   "note": "All broadcast-compatible shapes except those in which an axis of size 1 meets an axis of size 0; there the library throws (C14_empty_axis). C60 says what happens for every pair of shapes."
  },
  {
   "property": "C15",
   "status": "partial",
   "theorems": [
    "INNC.C15_incompatible_partial",
    "INNC.C15_incompatible_throws_partial",
    "INNC.C15_empty_axis_accepted"
   ],
   "note": "Shapes without an empty axis. With an empty axis incompatible shapes are accepted (C15_empty_axis_accepted). C60_rejected says exactly which pairs of shapes are rejected."
  },
  {
   "property": "C16",
   "status": "proved",
   "theorems": [
    "INNC.C16_result_type",
    "INNC.C16_later_lattice"
   ],
   "note": "For every state in which the operation returns."
  },
  {
   "property": "C17",
   "status": "proved",
   "theorems": [
    "INNC.C17_operand_order",
    "INNC.C17_no_element",
    "INNC.C17_elements",
    "INNC.C17_undefined"
   ],
   "note": "C17_elements: each element of any returned result. C17_undefined: the only undefined cases. C17_no_element: they are undefined. For any two shapes; the byte size of the result is below 2^63."
  },
  {
   "property": "C18",
   "status": "proved",
   "theorems": [
    "INNC.C18_commutes"
   ],
   "note": "For any two shapes; commutation of + and * of two floats is an assumption on the float arithmetic (FComm), true of IEEE up to NaN payloads."
  },
  {
   "property": "C19",
   "status": "proved",
   "theorems": [
    "INNC.C19_independent",
    "INNC.C19_throwing",
    "INNC.C19_type",
    "INNC.C19_queries",
    "INNC.C19_views",
    "INNC.C19_elements"
   ],
   "note": "All computing functions at once, as a classification of API calls; views, flags and queries separately; gradient buffers are storages too, so Extends covers them."
  },
  {
   "property": "C20",
   "status": "partial",
   "theorems": [
    "INNC.C20_compare_partial",
    "INNC.C20_trichotomy",
    "INNC.C20_swap"
   ],
   "note": "Operands that need no stretched axes of size 0 against 1; NaN behaviour follows the abstract float comparison. C60_compare: all shapes."
  },
  {
   "property": "C21",
   "status": "partial",
   "theorems": [
    "INNC.C21_all_partial",
    "INNC.C21_compare_all_partial",
    "INNC.C21_scan_partial",
    "INNC.C21_wide_types_wrong",
    "INNC.C21_not_boolean"
   ],
   "note": "Proved for i8 tensors of zeros and ones, as comparisons return; the claim is false for wider types and undefined for other bytes (witness theorems). C61 says what happens for every view."
  },
  {
   "property": "C22",
   "status": "proved",
   "theorems": [
    "INNC.C22_sum",
    "INNC.C22_sum_integer",
    "INNC.C22_overflow",
    "INNC.C22_empty"
   ],
   "note": "Any element type, shape and strides; integer overflow is undefined behaviour and characterised."
  },
  {
   "property": "C23",
   "status": "proved",
   "theorems": [
    "INNC.C23_mean",
    "INNC.C23_overflow",
    "INNC.C23_mean_integer"
   ],
   "note": "Any element type, shape and strides."
  },
  {
   "property": "C24",
   "status": "partial",
   "theorems": [
    "INNC.C24_integer_order",
    "INNC.C24_max_partial",
    "INNC.C24_min_partial",
    "INNC.C24_max_integer_partial",
    "INNC.C24_min_integer_partial",
    "INNC.C24_offset_wrong",
    "INNC.C24_grad_throws",
    "INNC.C24_empty_undefined"
   ],
   "note": "Views starting at their storage's first element, without gradients; false otherwise (witness theorems). C61 says what happens for every view."
  },
  {
   "property": "C25",
   "status": "partial",
   "theorems": [
    "INNC.C25_abs_partial",
    "INNC.C25_abs_integer_partial",
    "INNC.C25_view_undefined"
   ],
   "note": "Views whose elements lie below numel; false for other views (witness theorem). C61 says what happens for every view."
  },
  {
   "property": "C26",
   "status": "proved",
   "theorems": [
    "INNC.C26_convert",
    "INNC.C26_same",
    "INNC.C26_grad_rejected",
    "INNC.C26_widen_roundtrip",
    "INNC.C26_undefined"
   ],
   "note": ""
  },
  {
   "property": "C27",
   "status": "proved",
   "theorems": [
    "INNC.C27_zeros",
    "INNC.C27_ones",
    "INNC.C27_full",
    "INNC.C27_eye",
    "INNC.C27_fromBlob",
    "INNC.C27_like"
   ],
   "note": ""
  },
  {
   "property": "C28",
   "status": "proved",
   "theorems": [
    "INNC.C28_depicts",
    "INNC.C28_entries",
    "INNC.C28_mismatch",
    "INNC.C28_empty_undefined"
   ],
   "note": "Empty inner lists and the empty list are undefined behaviour (witness C28_empty_undefined)."
  },
  {
   "property": "C29",
   "status": "proved",
   "theorems": [
    "INNC.C29_cat",
    "INNC.C29_converts",
    "INNC.C29_axis",
    "INNC.C29_mismatch",
    "INNC.C29_empty_undefined"
   ],
   "note": "Empty list of tensors is an out-of-bounds vector access (witness C29_empty_undefined)."
  },
  {
   "property": "C30",
   "status": "proved",
   "theorems": [
    "INNC.C30_clone",
    "INNC.C30_detach"
   ],
   "note": "Independence is stated for any number of later += on either storage, including ones that throw half-way."
  },
  {
   "property": "C31",
   "status": "proved",
   "theorems": [
    "INNC.C31_listing",
    "INNC.C31_empty",
    "INNC.C31_injective"
   ],
   "note": "Exact text for every addressable tensor; equal texts imply equal shapes and element texts for non-empty shapes."
  },
  {
   "property": "C32",
   "status": "proved",
   "theorems": [
    "INNC.C32_add",
    "INNC.C32_one",
    "INNC.C32_requires_grad"
   ],
   "note": "Different storages, target elements at different places, shapes whose broadcast does not stretch an axis of size 1 to 0. Partial writes before an exception are covered by C33. Operands on one storage and shapes that do not fit: C64."
  },
  {
   "property": "C33",
   "status": "partial",
   "theorems": [
    "INNC.C33_backward_values",
    "INNC.C33_throw_partial",
    "INNC.C33_add_assign_changes",
    "INNC.C33_add_assign_elsewhere"
   ],
   "note": "Every call except += and backward leaves all tensors as they were. Of += the claim is false (C33_add_assign_changes); C33_add_assign_elsewhere says what remains, C64_effect exactly what changes. For backward past its guards: C33_backward_values (variables of programs without grad()); gradients may change."
  },
  {
   "property": "C34",
   "status": "proved",
   "theorems": [
    "INNC.C34_floating",
    "INNC.C34_set"
   ],
   "note": "Induction over all histories of API calls, including calls that throw."
  },
  {
   "property": "C35",
   "status": "proved",
   "theorems": [
    "INNC.C35_tracked",
    "INNC.C35_untracked",
    "INNC.C35_flags_kept"
   ],
   "note": "For every reachable state and every call of the API."
  },
  {
   "property": "C36",
   "status": "proved",
   "theorems": [
    "INNC.C36_rejected"
   ],
   "note": "numel() is the wrapping product the code computes; C04 relates it to the true number of elements."
  },
  {
   "property": "C37",
   "status": "proved",
   "theorems": [
    "INNC.C37_histories",
    "INNC.C37_once",
    "INNC.C37_order",
    "INNC.C37_program",
    "INNC.C37_terminates"
   ],
   "note": "For every history of API calls; the order is stated as an equation between backward() and a run over an explicit schedule."
  },
  {
   "property": "C38",
   "status": "partial",
   "theorems": [
    "INNC.C38_changed_partial",
    "INNC.C38_directional_partial",
    "INNC.C38_gradient_partial",
    "INNC.C38_program_partial",
    "INNC.C38_weighted_partial",
    "INNC.C38_current_partial",
    "INNC.C38_added_partial",
    "INNC.C38_unchanged"
   ],
   "note": "C38_program_partial: every program that computes with variables by the listed operations (and quotients and means where the library is right) and interleaves backward(), zero_grad(), grad() and += the way a training loop does; then backward(): gradients of all leaves grow by the exact partial derivatives, defined by dual numbers. Missing: programs that reuse results already back-propagated (C39, false) or computed from elements changed since. Rounding: C67_gradient. C38_weighted_partial: the same for results of any shape with arbitrary weights (the product of a gradient with the Jacobian). C38_changed_partial (Props/Consult): elements that backward() does not read (C73) may have been changed since; the gradients are still the derivatives of the computation as it was carried out. C38_current_partial, C38_added_partial (Props/Tangent): elements that backward() does read may have been changed since as well; the library then applies the differentiation rules with the factors, divisors and slopes as they are when backward() is called, and the gradients are exactly the derivative obtained in that way."
  },
  {
   "property": "C39",
   "status": "partial",
   "theorems": [
    "INNC.C39_separate_partial",
    "INNC.C39_repeat_partial",
    "INNC.C39_again",
    "INNC.C39_stuck",
    "INNC.C39_second_backward_partial",
    "INNC.C39_shared_partial",
    "INNC.C39_shared"
   ],
   "note": "False of the code when results share operations: arrival counts are never reset (two kernel-checked counterexamples). C39_again: for every graph and every continuation of the program, a second backward() on the same result is exactly one propagation step, from the result to its direct operands; C39_stuck: so it changes no gradient and no element elsewhere. C39_shared: the same for two results s and t that share intermediate results: what backward() on s went through, and t uses no more often, stops backward() on t, so that leaves get nothing through it. C39_separate_partial: for any list of results, of any program that computes with variables, that share only leaves, backward() on all of them adds the sum of the partial derivatives to every leaf. C39_repeat_partial: a result computed from leaves by one operation can be back-propagated any number n of times, which adds n times the derivative (so together with C39_again the case of the same tensor is settled for every graph)."
  },
  {
   "property": "C40",
   "status": "partial",
   "theorems": [
    "INNC.C40_dropped_partial",
    "INNC.C40_retained_partial",
    "INNC.C40_leaf_partial",
    "INNC.C40_kept",
    "INNC.C40_not_after_earlier_backward"
   ],
   "note": "Proved for every graph no part of which was back-propagated before (in particular every program before its first backward()); false otherwise, with a counterexample."
  },
  {
   "property": "C41",
   "status": "partial",
   "theorems": [
    "INNC.C41_zeroed",
    "INNC.C41_none",
    "INNC.C41_view_clears_base"
   ],
   "note": "Zeroing and independence of other storages are proved; the claim about other gradients is false for views (C41_view_clears_base)."
  },
  {
   "property": "C42",
   "status": "partial",
   "theorems": [
    "INNC.C42_ignores_upstream_partial",
    "INNC.C42_last_partial",
    "INNC.C42_inside",
    "INNC.C42_any_use"
   ],
   "note": "False of the code: mean() ignores the gradient of its result. C42_inside gives, for every program of the fragment of C38 with means anywhere in it, what backward() computes instead: the derivative with the inner means held constant plus the derivative of every inner mean, each counted once with factor 1. C42_any_use: whatever is computed from the mean of a leaf, its gradient grows by 1/numel. C42_ignores_upstream_partial is a concrete counterexample. C42_last_partial: where mean() is the last operation the gradient is right for every program."
  },
  {
   "property": "C43",
   "status": "partial",
   "theorems": [
    "INNC.C43_constant_denominator",
    "INNC.C43_constant_numerator",
    "INNC.C43_integer_denominator",
    "INNC.C43_broadcast_denominator",
    "INNC.C43_scalar_denominator",
    "INNC.C43_rule_partial",
    "INNC.C43_constant_operand",
    "INNC.C43_integer",
    "INNC.C43_lower_rank"
   ],
   "note": "False of the code. For every program: if a result depends on a quotient with a constant operand (C43_constant_operand), with a denominator of integer type (C43_integer), or with a leaf denominator of another rank than the quotient (C43_lower_rank), backward() never returns; five runs show which undefined or throwing outcome occurs, also for broadcast denominators of the same rank. C43_rule_partial: the quotient rule where both operands require grad and the denominator has the shape of the result, for every gradient of the quotient."
  },
  {
   "property": "C44",
   "status": "partial",
   "theorems": [
    "INNC.C44_first_element",
    "INNC.C44_view",
    "INNC.C44_returns_partial",
    "INNC.C44_rule_partial"
   ],
   "note": "False of the code: throws if the extreme is the first element, wrong value for views (counterexample theorems). C44_returns_partial says exactly when they return; C44_rule_partial: where they do, the gradient goes to one position that holds the extreme."
  },
  {
   "property": "C45",
   "status": "partial",
   "theorems": [
    "INNC.C45_slice",
    "INNC.C45_transpose",
    "INNC.C45_never"
   ],
   "note": "False of the code, for every program: backward() on a one-element view that requires grad returns and leaves the gradient of every leaf as it was, whatever the derivative (C45_never); two concrete programs as counterexamples."
  },
  {
   "property": "C46",
   "status": "partial",
   "theorems": [
    "INNC.C46_other_uses",
    "INNC.C46_shared"
   ],
   "note": "False of the code: the retained gradient of a view aliases the base's gradient (counterexample theorem C46_other_uses). C46_shared proves, for every program of the fragment of C38, what the gradient of a retained view is instead: the gradient of its base read through the view, so all uses of the base are counted."
  },
  {
   "property": "C47",
   "status": "partial",
   "theorems": [
    "INNC.C47_careful_partial",
    "INNC.C47_sound_partial",
    "INNC.C47_uninitialised",
    "INNC.C47_released",
    "INNC.C47_abs_strided",
    "INNC.C47_max_empty",
    "INNC.C47_randn_f64",
    "INNC.C47_backward_strided_leaf",
    "INNC.C47_backward_view_again"
   ],
   "note": "Proved for every history of calls on tensors returned by earlier calls, except backward(), grad(), release(), uninitialised tensors, and the argument conditions in Spec/Memory.Allowed (sizes below 2^62 bytes, abs only on dense layouts, max/min only on non-empty tensors, and so on). Witness theorems show that the excluded calls do go wrong. backward() and grad() are added in C59. Back-propagation through C38's programs is shown to return, hence to have no undefined behaviour, in the theorems of C38."
  },
  {
   "property": "C48",
   "status": "partial",
   "theorems": [
    "INNC.C48_always_throws_partial"
   ],
   "note": "The property is false of the code: stride() throws on every tensor, which is what is proved."
  },
  {
   "property": "C49",
   "status": "partial",
   "theorems": [
    "INNC.C49_randn_partial",
    "INNC.C49_f64_out_of_bounds",
    "INNC.C49_f64_wrong_type"
   ],
   "note": "f32 and integer types proved; f64 writes out of bounds for every non-empty shape (C49_f64_out_of_bounds)."
  },
  {
   "property": "C50",
   "status": "proved",
   "theorems": [
    "INNC.C50_neg",
    "INNC.C50_pos"
   ],
   "note": ""
  },
  {
   "property": "C51",
   "status": "proved",
   "theorems": [
    "INNC.C51_terminates"
   ],
   "note": "Loops of the model carry fuel; running out of it is proved impossible for all histories."
  },
  {
   "property": "C52",
   "status": "proved",
   "theorems": [
    "INNC.C52_elements",
    "INNC.C52_outside",
    "INNC.C52_inside",
    "INNC.C52_leaf"
   ],
   "note": ""
  },
  {
   "property": "C53",
   "status": "proved",
   "theorems": [
    "INNC.C53_acyclic",
    "INNC.C53_reclaimed",
    "INNC.C53_all"
   ],
   "note": "Histories are arbitrary lists of API calls that return or throw. Ownership edges are those of shared_ptr and unique_ptr members (Spec/Lifetime.Owns). Recursion depth of destructors is not modelled."
  },
  {
   "property": "C54",
   "status": "proved",
   "theorems": [
    "INNC.C54_call",
    "INNC.C54_program",
    "INNC.C54_continues",
    "INNC.C54_read"
   ],
   "note": "The state is arbitrary; C54_call covers one call, C54_program whole programs, C54_read the values returned by to_string() and all()."
  },
  {
   "property": "C55",
   "status": "partial",
   "theorems": [
    "INNC.C55_program_partial",
    "INNC.C55_text_partial"
   ],
   "note": "Rule (Spec/Program) gives every call its meaning where the library keeps its promise; programs with grad(), release(), all(), stride() or uninitialised tensors have no meaning there; backward() is added in C58. C55_text_partial adds what to_string() prints at the end. abs(), max() and min() have rules for tensors that require grad too; for max() and min() of such tensors the first element must not be the extremum (see C44)."
  },
  {
   "property": "C56",
   "status": "proved",
   "theorems": [
    "INNC.C56_questions",
    "INNC.C56_answers",
    "INNC.C56_retain_grad",
    "INNC.C56_zero_grad",
    "INNC.C56_release"
   ],
   "note": "Handles are those of existing tensor objects; an empty or moved-from Tensor (null pointer) is not one. is_contiguous reads the stride vector; that it has enough entries is part of C47 (Sound) for careful programs."
  },
  {
   "property": "C57",
   "status": "proved",
   "theorems": [
    "INNC.C57_apart",
    "INNC.C57_backward",
    "INNC.C57_zero_grad",
    "INNC.C57_grad_moves"
   ],
   "note": "C57_grad_moves shows why grad() is excluded: the object it returns is the gradient itself. Elements are those of Denotes (initialised tensors)."
  },
  {
   "property": "C58",
   "status": "proved",
   "theorems": [
    "INNC.C58_program",
    "INNC.C58_text"
   ],
   "note": ""
  },
  {
   "property": "C59",
   "status": "proved",
   "theorems": [
    "INNC.C59_trained",
    "INNC.C59_backward",
    "INNC.C59_sound",
    "INNC.C59_gradient",
    "INNC.C59_view_of_strided",
    "INNC.C59_unallocated_gradient"
   ],
   "note": "The rules are those of Spec/Train (Permitted) and Spec/Memory (Allowed); the theorems C59_view_of_strided, C59_unallocated_gradient, C47_backward_strided_leaf, C47_backward_view_again and those of C43 and C45 show that the claim is false without them. Not in such programs: release() and uninitialised tensors."
  },
  {
   "property": "C60",
   "status": "proved",
   "theorems": [
    "INNC.C60_arith",
    "INNC.C60_compare",
    "INNC.C60_rejected",
    "INNC.C60_shape"
   ],
   "note": ""
  },
  {
   "property": "C61",
   "status": "proved",
   "theorems": [
    "INNC.C61_abs",
    "INNC.C61_max",
    "INNC.C61_min",
    "INNC.C61_extreme_empty",
    "INNC.C61_all",
    "INNC.C61_all_wide"
   ],
   "note": ""
  },
  {
   "property": "C62",
   "status": "proved",
   "theorems": [
    "INNC.C62_arith",
    "INNC.C62_compare",
    "INNC.C62_neg",
    "INNC.C62_sum",
    "INNC.C62_mean",
    "INNC.C62_convert",
    "INNC.C62_clone",
    "INNC.C62_cat",
    "INNC.C62_text",
    "INNC.C62_layout_dependent"
   ],
   "note": "max, min and abs are outside the claim because they depend on the layout: C62_layout_dependent."
  },
  {
   "property": "C63",
   "status": "proved",
   "theorems": [
    "INNC.C63_copy_slice",
    "INNC.C63_copy_transpose",
    "INNC.C63_scalar_slice",
    "INNC.C63_scalar_transpose",
    "INNC.C63_slice_slice",
    "INNC.C63_transpose_slice",
    "INNC.C63_arith_slice",
    "INNC.C63_compare_slice",
    "INNC.C63_arith_transpose",
    "INNC.C63_cut_join"
   ],
   "note": ""
  },
  {
   "property": "C64",
   "status": "proved",
   "theorems": [
    "INNC.C64_effect",
    "INNC.C64_numbered",
    "INNC.C64_separate",
    "INNC.C64_in_order",
    "INNC.C64_self",
    "INNC.C64_running"
   ],
   "note": ""
  },
  {
   "property": "C65",
   "status": "proved",
   "theorems": [
    "INNC.C65_copy_reshape",
    "INNC.C65_reshape_reshape",
    "INNC.C65_reshape_back",
    "INNC.C65_cat_one",
    "INNC.C65_cat_cat",
    "INNC.C65_cat_slice",
    "INNC.C65_cat_transpose",
    "INNC.C65_cat_arith",
    "INNC.C65_rounds_twice",
    "INNC.C65_arith_reshape",
    "INNC.C65_compare_reshape",
    "INNC.C65_scalar_reshape"
   ],
   "note": ""
  },
  {
   "property": "C66",
   "status": "proved",
   "theorems": [
    "INNC.C66_session",
    "INNC.C66_elements",
    "INNC.C66_outline",
    "INNC.C66_data",
    "INNC.C66_defined",
    "INNC.C66_text"
   ],
   "note": ""
  },
  {
   "property": "C67",
   "status": "proved",
   "theorems": [
    "INNC.C67_ieee_sum",
    "INNC.C67_ieee_integers",
    "INNC.C67_ieee_absorbed",
    "INNC.C67_session",
    "INNC.C67_gradient",
    "INNC.C67_sum",
    "INNC.C67_sum_exact",
    "INNC.C67_mean"
   ],
   "note": ""
  },
  {
   "property": "C68",
   "status": "proved",
   "theorems": [
    "INNC.C68_closed",
    "INNC.C68_ieee",
    "INNC.C68_widen"
   ],
   "note": ""
  },
  {
   "property": "C69",
   "status": "proved",
   "theorems": [
    "INNC.C69_step",
    "INNC.C69_train",
    "INNC.C69_squares",
    "INNC.C69_regression"
   ],
   "note": ""
  },
  {
   "property": "C70",
   "status": "proved",
   "theorems": [
    "INNC.C70_sizes",
    "INNC.C70_injective",
    "INNC.C70_signed"
   ],
   "note": ""
  },
  {
   "property": "C71",
   "status": "proved",
   "theorems": [
    "INNC.C71_invariant",
    "INNC.C71_defined",
    "INNC.C71_terminates"
   ],
   "note": ""
  },
  {
   "property": "C72",
   "status": "proved",
   "theorems": [
    "INNC.C72_empty",
    "INNC.C72_text",
    "INNC.C72_moved",
    "INNC.C72_moves",
    "INNC.C72_commands",
    "INNC.C72_program"
   ],
   "note": ""
  },
  {
   "property": "C73",
   "status": "proved",
   "theorems": [
    "INNC.C73_reads",
    "INNC.C73_edits",
    "INNC.C73_linear",
    "INNC.C73_factor"
   ],
   "note": "C73_reads is the general statement; C73_edits and C73_linear are its cases for += and for graphs of sums. C73_factor shows by one program that the elements of a factor are taken when backward() is called, not when the product is computed."
  },
  {
   "property": "C74",
   "status": "proved",
   "theorems": [
    "INNC.C74_interleaved",
    "INNC.C74_any_state",
    "INNC.C74_throws",
    "INNC.C74_undefined",
    "INNC.C74_blame"
   ],
   "note": "C74_interleaved is the statement about two programs; C74_any_state compares a new process with an arbitrary state (not only reachable ones) and says that the state is left alone; C74_throws is about exceptions that are not caught. Turns change between calls, not within one: the library has no threads. C74_undefined and C74_blame are the converse: undefined behaviour and exceptions of the joint run are those of one program alone. The random numbers that randn() draws are parameters of the calls."
  },
  {
   "property": "C75",
   "status": "proved",
   "theorems": [
    "INNC.C75_watched",
    "INNC.C75_next",
    "INNC.C75_view_noticed"
   ],
   "note": "The observer may not add in place to memory of the program, set flags of its tensors, call zero_grad(), backward() or release(), or take the first view of a tensor that requires grad (C75_view_noticed shows that it is noticed). It may use differentiable operations on the tensors of the program; these add nodes to the graph, which backward() of the program does not see."
  },
  {
   "property": "C76",
   "status": "proved",
   "theorems": [
    "INNC.C76_order",
    "INNC.C76_unused"
   ],
   "note": "The two computations must not change tensors of the program (the calls of an observer in C75), and views of tensors that require grad must be taken of tensors that have a gradient already. Each works on copies of the variables."
  },
  {
   "property": "C77",
   "status": "partial",
   "theorems": [
    "INNC.C77_reshape_partial",
    "INNC.C77_transpose_partial",
    "INNC.C77_cat",
    "INNC.C77_add",
    "INNC.C77_small",
    "INNC.C77_overflow_order",
    "INNC.C77_float_order",
    "INNC.C77_narrow_add"
   ],
   "note": "Proved: reshape (C77_reshape_partial, every type), transpose (C77_transpose_partial, integers), concatenation, addition, C77_small. False in general and witnessed: C77_overflow_order, C77_float_order, C77_narrow_add. Scalars are excluded from the reshape law (a scalar's sum converts its element instead of adding it to 0)."
  },
  {
   "property": "C78",
   "status": "proved",
   "theorems": [
    "INNC.C78_value",
    "INNC.C78_equal",
    "INNC.C78_narrow",
    "INNC.C78_wide",
    "INNC.C78_one_order_overflows",
    "INNC.C78_mixed_types",
    "INNC.C78_floats",
    "INNC.C78_total",
    "INNC.C78_totals_equal",
    "INNC.C78_total_exact"
   ],
   "note": ""
  },
  {
   "property": "C79",
   "status": "proved",
   "theorems": [
    "INNC.C79_count",
    "INNC.C79_three",
    "INNC.C79_equal",
    "INNC.C79_extremes",
    "INNC.C79_mean",
    "INNC.C79_view_wrong",
    "INNC.C79_not_a_number"
   ],
   "note": "Tensors with fewer than 2^63 elements. Witnesses: C79_view_wrong (max of a view need not be one of its elements), C79_not_a_number (a == a fails for NaN)."
  },
  {
   "property": "C80",
   "status": "proved",
   "theorems": [
    "INNC.C80_value",
    "INNC.C80_equal",
    "INNC.C80_compare",
    "INNC.C80_roundtrip",
    "INNC.C80_sum",
    "INNC.C80_total",
    "INNC.C80_mixed",
    "INNC.C80_mixed_compare",
    "INNC.C80_quotient",
    "INNC.C80_mean",
    "INNC.C80_transpose",
    "INNC.C80_too_large",
    "INNC.C80_mixed_wrong",
    "INNC.C80_zero_sign"
   ],
   "note": "For the IEEE instance of the float arithmetic (Spec/Ieee.lean); shapes in which no axis of size 1 meets an empty one (C14_empty_axis). Witnesses: C80_too_large, C80_zero_sign."
  }
 ]
}