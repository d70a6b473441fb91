# Formal model of INNC in Lean 4: design

## Approach

The whole library is a single-threaded program over a heap of reference-counted
tensors and byte storages.  The model is an executable Lean program in a state
monad `M F α = Heap F → Out (Heap F) α` with three outcomes:

* `ok a h`     - the call returned `a` in heap `h`;
* `throw e h`  - a C++ exception of class `e` left the call, heap `h` (partial effects kept);
* `ub u`       - the C++ execution has undefined behaviour of kind `u`
                 (out-of-bounds, null dereference, uninitialised read, signed overflow,
                 division by zero, element read at another type, bad dispatch index, ...).

Model files are under `lean/Verif/Model`, one per source area, each definition citing
the file and lines it models:

| file | models |
|---|---|
| `Basic` | outcomes, machine arithmetic (`size_t`, `long long`) |
| `Scalar` | `types.hpp`, C++ conversions / arithmetic / comparison on elements |
| `Layout` | `layouts.*`, `broadcast_range`, `for_each_sizevec`, index computations |
| `Parse` | `ssplit`, `trim_`, `std::stoll`, the per-axis slice logic |
| `Heap` | `storage.*`, `TensorImpl` fields, `create`, element load/store |
| `Ops` | `ops.hpp` kernels |
| `Tensor` | `TensorImpl` members, `Tensor` API |
| `Backward` | `function.*`, `refresh_n_outway`, `backward` |
| `Init`, `Print` | `TensorInit`, `to_string` |
| `Call` | the public API as a type of calls, and histories of calls |

`size_t` values are `Nat` reduced mod 2^64 at every operation that can wrap;
`long long` arithmetic is `Int` with wrap-around where C++ converts through unsigned and
with a `ub overflow` outcome where C++ signed arithmetic overflows.

Floating point is a parameter: a type `F` with operations (`class FOps F`) and **no laws**.
Theorems about floats therefore hold for IEEE arithmetic as well as for any other.
Theorems that need exact arithmetic (gradients) assume a field whose operations are the
`FOps` operations (`class Spec.Exact`), and say so.

## Statement of properties

`Verif/Spec` holds small independent specifications: row-major index lists, broadcast
shape, Python slices, "tensor `t` shows shape `s` and elements `f` in heap `h`".
Property theorems are in `Verif/Props/*`, with an `example` beside each showing that its hypotheses
are met by a concrete, non-trivial case.

## Plan and state per property

Each line says what is modelled and how the property is proved.  Where the library does not have the property, a
theorem with a concrete API program (evaluated by the kernel) shows it, and a `_partial` theorem states what does
hold; MANIFEST.json names the theorems.

| id | modelled | proof |
|---|---|---|
| C01 | `for_each_sizevec` literally, as a loop with fuel | odometer = row-major list, by induction on the shape; fuel never exhausted |
| C02, C03, C04 | `StridedLayout`, `is_contiguous`, `numel` | list induction; mixed-radix bijection; arithmetic mod 2^64 |
| C05, C06 | the per-axis branch of `operator[]` | case analysis against Python's slice rule (`Spec/Slice`), counting lemmas; signed overflow is an outcome |
| C07 | `ssplit`, `trim_`, `std::stoll` on character lists | round trip: every spelling of every specification is read back; rejections |
| C08 | slices, transposes, reshapes, `detach` | invariant "all elements lie in the storage", kept along chains of views |
| C09, C32 | `operator+=` | fold over the row-major list; a cell changes by the sum of the elements projected to it |
| C10 | `transpose` | element law of the view; composition |
| C11, C12, C13 | `regularize_size`, both `reshape` functions | row-major rank is kept; sharing test characterised |
| C14, C15, C17, C18, C20 | `apply_no_grad_binary_op`, `apply_cmp_op`, `broadcast_range`, kernels | one lemma about element-wise loops; NumPy's rule in `Spec/Index` |
| C16 | `larger_type`, dispatch | for every state in which the operation returns |
| C19, C30, C33 | all functions of the API (`Model/Call`) | relation `Extends` between states; frame lemmas for every function |
| C21 | `all` (byte scan) | characterisation of the scan, instance for comparison results |
| C22, C23 | `sum`, `mean` kernels | fold over the row-major list; overflow characterised |
| C24, C44 | `max`, `min`, slopes saved for back-propagation | fold with the first storage element as start |
| C25 | `abs` | element-wise loop on the layout copied from the operand |
| C26, C27, C28, C29, C50 | `type`, constructors, `TensorInit`, `cat`, unary operators | element-wise loops; trees by structural induction |
| C31 | `to_string` | exact text; injectivity by parsing from the left |
| C34, C35 | flags and all functions of the API | induction over histories |
| C36, C41, C48, C49 | guards of `backward`, `zero_grad`, `stride`, `randn` | direct |
| C37, C51 | `refresh_n_outway`, `backward` queue loops | the counts equal the numbers of consumers; Kahn's order; bounds on the fuel |
| C38, C39, C42, C43 | every `step_back`, `try_accumulate_*` | adjoint identity: transposition of the dual-number derivative, summed along the schedule, in exact arithmetic |
| C42 | the same, with means anywhere | dual numbers in which the means inside are constants (`Spec/Detach`): each visit of such a mean adds its derivative, whatever its gradient is; summed along the schedule |
| C40, C52 | the same | invariants of the queue loop |
| C45 | the same, and the programs of C38 | counterexamples, and the negation for every program: back-propagation started at a view is the back-propagation of C38 with a seed of 0 (the invariant allows the root to be a view, whose gradient is then nobody else's) |
| C46 | the same | counterexample, and for every program what the gradient of a retained view is instead (`Spec/ViewGrad.ViewOn`): view and base share the storage of the gradient along the whole pass (`Lemmas/ViewGrad`) |
| C47 | all functions of the API | invariant over histories of calls with permitted arguments (`Spec/Memory`) |
| C53 | ownership edges of `TensorImpl` and `Backward` | gradients and slopes are younger than their owner and record no operation (`Lemmas/Cycles`); a rank that grows along ownership |
| C54 | all functions of the API | two states that agree on a set closed under ownership stay in agreement (`Lemmas/Local`) |
| C55 | every call of the API except back-propagation, copies and assignments of handles | simulation between heaps and an abstract memory of blocks (`Spec/Program`, `Lemmas/Program*`): each rule is simulated by the call, then induction on the program |
| C56 | `numel`, `is_contiguous`, flags, `grad`, `zero_grad`, `release` | direct, from the invariant that handles stay valid along every history (`Lemmas/Valid`) |
| C57 | all functions of the API | induction over the calls: storages of gradients were so before or are new (`Lemmas/Apart`), results of calls are on storages of operands or on new ones that hold no gradient |
| C58 | every call of C55, `backward`, `zero_grad` | the simulation of C55 with the invariant of C57 (blocks hold no gradients) and the frame of C52 |
| C59 | every call of the API except `release` and `empty` | invariant over programs (`Spec/Train`): the gradient of each tensor has room for it, and what each operation of the graph reads is in good order; one lemma per operation of the back-propagation |
| C60 | the operators, kernels, loops and index arithmetic | induction over the loop: state at the first failing index (`Spec/Outcome`) |
| C61 | the three functions and their kernels, storages as bytes for `all` | outcome of the loops, with the first failing index; bytes of two's complement integers (`Spec/Outcome.byteIn`) |
| C62 | as for C14, C17, C20, C22, C23, C26, C29 to C31 | two runs, in two memories, each determined by the elements (`Spec/Laws.Agree`) |
| C63 | as for C07, C10, C14, C20, C29 | composition of the view theorems, the operation's element function applied to the selected elements; the same for a scalar operand, for negation, copies and conversions |
| C64 | as for C32 | a loop invariant that both operands read the abstract memory (`Spec/InPlace.addEach`), whatever numbering of places; the special cases by induction on the list of indices |
| C65 | as for C11, C29 | composition of C11, C29, C06, C10 and C60, with induction on the list of operands |
| C66 | the whole model, which is parametric in the float arithmetic | logical relation (abstraction theorem) proved for every function of the model |
| C67 | the whole model over three arithmetics: floats, an ordered field, balls | two instances of C66 (float in ball, centre of ball exact); induction on the elements for sums; IEEE 754 arithmetic (`Spec/Ieee`) is proved to be an instance (`Spec/IeeeRounding`) |
| C68 | the whole model; IEEE 754 binary32 and binary64 as an instance of the float arithmetic | instance of C66 with the relation that depends on the element type; rounding lands in the format and keeps its numbers |
| C69 | `grad()`, `*`, `detach()`, `+=`, `zero_grad()` and `backward()` composed into the loop a user writes | C39 for one backward(), C32 for +=, C41 for zero_grad, frame properties; induction over the parameters and over the steps |
| C70 | the loop of `iter_to_string` with its flag and accumulator (`Model/SizeText`) | induction over the list; digits and separators are told apart by their characters |
| C71 | `Spec/Control`: control points, actions, `tick`, `ticks`; answers and refusals on the abstract memory of C55 | simulation with the abstract memory step by step; strong induction on the measure; the example is a counting loop that ends with a caught exception |
| C72 | `Model/Handle`: variables as nullable pointers, statements, `callOn` with the dereferences of tensor.cpp | case analysis over all calls; simulation of the moving by the copying program by induction over the program; equality with `perform` of C55 |
| C73 | `backward` and everything it calls; `Spec/Consult` lists the storages that are read | relational: every function of the backward pass is run in two states that agree on the listed storages (`Lemmas/Consult`, `Glimpse`), by structure of the code and induction on the queue; `C73_factor` is a kernel-checked program that shows a listed factor matters |
| C74 | all of `Model`; `Spec/Interleave` defines schedules (`interleave`, `turnsOf`) and what it means that variables hold the same tensors | relational (`Lemmas/Twin`, `TwinCalls`, `TwinRun`): every function is run in two states, one of which holds a copy of the objects of the other under other names beside unrelated objects; the outcomes are the same under the names and the unrelated objects stay as they are; then induction on the schedule (`Lemmas/Interleave`) |
| C75 | all of `Model`; `Spec/Watch` defines the calls of an observer (`Looks`) and runs of a program with an observer (`Watched`) | the calls of an observer keep every object of the program as it is (`Lemmas/Watch`, from the frame theorem of C19), so that the state of the program alone stays embedded in the state of both; the relational theorems of C74 move the embedding over the statements of the program |
| C76 | all of `Model`; `Spec/Order` defines evaluations (`Evaluates`) and what it means that two runs end alike (`EndAlike`) | `Lemmas/Order`: after `A`, `B` and after `B`, `A` the states hold the same objects under names that are swapped (three blocks: objects from before, of `A`, of `B`); the embedding theorems of C74 give each block, and then carry the correspondence over everything that follows |
| C77 | SumIs/MeanIs: what sum()/mean() of a tensor return (Spec/Totals) | C11_reshape, C10_transpose, C29_cat, C14 give the elements; index lists are permutations of each other; integer accumulation is exact when it returns; kernel-computed witnesses for the three exceptions |
| C78 | Formula, its exact integer value, its broadcast shape, FitsIn, and its evaluation by the operators of the library (Spec/Ring) | induction on the expression over arith_ok / arith_undefined (C14, C17); congruence modulo 2^w; reading an operand of an operand (project_project), the broadcast shape as least upper bound; sums by C22; kernel-computed witnesses for the three exceptions |
| C79 | calls of cmp, sum, all, max, min, mean | C60, C21, C22 for the calls; a fold invariant for max and min of views with any start; truncated division is monotone |
| C80 | expressions as in C78, over the IEEE instance of the floats | induction on the expression; sums and products of whole numbers below 2^24 (2^53) are multiples of the last place, so rounding leaves them alone; sums by C67, the transpose by a permutation of the indices |
| C81- | see properties.jsonl | see the head of the file of the theorem |

### How gradients are specified (C38)

`Spec/Deriv` assigns to every tensor of a computation a function from indices to dual numbers `F[ε]`.  A `Lift` is an
assignment whose values are the elements of the tensors and that obeys the defining equation of every operation
(`Computed`: `+`, `-`, `*`, quotients by multiplication, sum, mean, views by their index map, cat, and multiplication
by the saved slopes for abs, max and min).  `Slopes` says what the saved slopes must be.  The derivative with respect to an element
of a leaf is the ε-part of the root for the lift in the direction of that element.  The theorems say that such a lift
exists and that the gradient grows by that ε-part.
`Spec/Tangent` states the differentiation rules alone (`Follow`, `Tangent`): only the ε-parts are prescribed, and factors, divisors
and slopes are the elements when `backward()` is called.  Every lift is a tangent assignment; after elements were changed only
the latter exists, and `Props/Tangent` shows that the gradients are its ε-parts.
`Spec/Forward` lists the programs: calls whose arguments fit, `backward()` on results that share only leaves with the
variables used later, `grad()`, `zero_grad()` and `+=` as in a training loop.

## What is modelled

All of `src/INNC` and `include/INNC` that the public class `Tensor` can reach: `layouts`, `storage`, `types`,
`tensorImpl`, `tensor`, `function`, `ops`, `dispatcher`, `utils` (`ssplit`, trimming, `broadcast_range`,
`for_each_sizevec`), `TensorInit`.

Simplifications, each also noted at the definition:

* Storage is a list of typed cells instead of bytes.  Reading a cell at another type is the outcome `ub typePun`
  (C47); `all()` reads bytes, and its model does so for i8 cells.
* Objects are never freed in `Heap`; handles are indices.  Lifetime is the subject of C53 and C54.
* `Tensor` objects (variables) are the indices of what they point to; empty `Tensor`s, assignments and moves are modelled in
  `Model/Handle` (C72), which relates programs with such variables to programs on indices.  `cat` of a vector with an empty
  `Tensor` in it dereferences the null pointer before it compares shapes; in the code an earlier shape may be rejected first.
* `size_t` is 64 bits.  An allocation of 2^63 bytes or more throws; smaller ones succeed.
* Floating point is abstract (`FOps`; `Spec/Ieee` gives the IEEE 754 instance that common platforms have, with kernel-evaluated runs in `Props/Ieee`); conversions of floats that do not fit an integer type are `ub floatToInt`.
  The text of floats is abstract.
* `std::sort` in `reshape` (on data that is written back unchanged) is omitted.
* The random engine is a parameter (a sequence of numbers).
* Exceptions are classes (`runtime`, `invalidArgument`, `outOfRange`, `badAlloc`), without their messages.

Not modelled: `sformat` (it only builds messages of exceptions) and code no public function reaches (`make_stub`, `no_grad_add`, `check_same_size`, `SingletonBack`,
`size(int)` with negative arguments, `sparse` layouts, `_version`), the compile-time traits, the build files, stack
depth of destructors, and threads (the library has none).

## Trusted base

* Lean's kernel.  `#print axioms` of every property theorem gives a subset of `propext`, `Classical.choice`,
  `Quot.sound`.  There are no axioms of our own, no `sorry`, no `native_decide`, no `implemented_by`.
* The reading of the C++ text in the model: every definition cites the lines.
* The specifications in `lean/Verif/Spec`, with the statements in `lean/Verif/Props`.
* For C38, C39, C42, C43, C44 and the theorems in `Props/GradRules`: the arithmetic is an exact field (`Spec.Exact`); rounding is covered by C67: with rounded arithmetic results and gradients differ by at most the bound that the run over balls computes.

## Defects of the library that are proved

1. `broadcast_range` never rejects (its test cannot fail): empty axes make incompatible shapes acceptable and
   compatible ones throw (C14, C15).
2. `cnt_from_aug_index` does not check that the index is as long as the shape; the model has an undefined outcome there, and
   the safety theorems (C47, C59) show that the calls they cover do not reach it.
3. `abs()`, and gradients of tensors with strided layouts, allocate `numel` elements for a layout that reaches
   further (C25, C47).
4. Arrival counts are never reset: a second `backward()` through shared results is wrong (C39, C40, C47). `C39_again` says for every graph, and for whatever the program does between the two calls (`Spec.Later`), that the second call is one propagation step from the root; `C39_stuck` that nothing beyond the root and its direct operands changes; `C39_shared` says the same of two results that share intermediate ones (`Spec/Shared`).
5. `mean()` ignores the gradient of its result; quotients dereference null or dispatch badly for constant operands
   and are wrong for broadcast denominators (C42, C43; universal statements: C42_inside, C43_constant_operand,
   C43_integer, C43_lower_rank).
6. `reshape`: scalars that require grad, `{0, -1}`, negative sizes, overflowing products (C08, C11, C12).
7. `max()`/`min()`: start at the first element of the storage instead of the view, throw if the first element is the
   extreme and grad is required, read out of bounds when empty (C24, C44).
8. `all()` scans bytes (C21).  9. `randn(…, f64)` overruns an f32 buffer (C49).  10. `stride()` always throws (C48).
11. `backward()` on a one-element view, and retained gradients of views (C45, C46); `zero_grad()` on a view clears the
    gradient of its base (C41).
12. `+=` that throws has already changed elements (C33).
13. Slices with huge steps overflow; slice strings with trailing text are accepted (C06, C07).
14. Empty initializer lists and `cat` of no tensors (C28, C29).

## Testing the model

`lean/Verif/Suite` runs the project's own tests (`test/test.cpp`, all except that of `sformat`) on the model, with IEEE 754
arithmetic and the printed text of numbers, evaluated by the kernel.  The model passes all of them, including
`autograd.clone`, whose last assertion holds only because arrival counts are never reset (defect 4).  The project itself cannot
be run here; that it passes its tests is assumed.  These are tests, not proofs, and no property rests on them: they show that the
reading of the code agrees with what its authors observed.

## Testing the theorems

`seeded/LOG.jsonl` records edits of the model that introduce realistic bugs, made in a scratch copy, with the theorems
that stopped being provable and those that were tightened because they did not.
