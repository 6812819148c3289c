# Formal model of libCEED in Lean 4

## Trusted base

* Lean's kernel (4.33.0) and the three standard axioms `propext`, `Classical.choice`, `Quot.sound`. No axiom is
  added, no `sorry`/`admit`, no `native_decide`, no `bv_decide`.
* Mathlib is used as an ordinary library (every constant used is re-checked by the kernel).
* The reading of the C source by the author of the model: every definition cites the file and lines it models.
* Scalars: `CeedScalar` is modelled by an arbitrary commutative ring / field / ordered field / the reals, as stated in
  each theorem. Rounding of floating point arithmetic is not modelled.
* Integers: `CeedInt`, `CeedSize` are unbounded `Nat`/`Int`; overflow of `int32_t` products is not modelled unless said.
* Allocation never fails.

## Modelling conventions

* `Res a = ok a | err code | ub`. Undefined behaviour of C (out of bounds access, use after free, null dereference,
  uninitialised read) is the distinct outcome `ub`; an error return of the library is `err`.
* A C array is `Buf a` (length and contents); `rd`/`wr` outside the length give `ub`. Loops are `loop n body`.
* Calls that return an error also return the state they leave behind (the C code does not roll back), so that
  "failed calls change nothing" can be stated and refuted.
* Histories are lists of calls; properties over histories are proved by induction over the list.
* Specifications live in separate `Spec` files/sections and are stated with sums over `Finset.range`, plain functions
  on indices, and lists; they do not mention the loops of the model.

## What is modelled

Interface layer (`interface/*.c`) and CPU reference backend (`backends/ref`), host memory only; of `backends/opt` and `backends/avx` the
tensor contractions (C53), the operator application (C54) and the assembly of QFunctions (C72); of `backends/memcheck` the vectors (C60), the QFunction contexts (C77) and the application of QFunctions (C78); of
`backends/cuda-ref` and its kernels (which `hip-ref` shares) the element restrictions (C61), bases (C62), vectors (C63, CUDA), contexts (C76), operator application (C66),
matrix assembly (C70), assembly of diagonals (C71) and of QFunctions (C73).
Not modelled: the rest of the GPU backends, OCCA, MAGMA, SYCL, XSMM, compilation of JIT sources (C65 covers loading them),
Fortran/Python/Julia/Rust bindings, printing (`*View*`), environment variables, `CeedRequest` (the reference backend
is synchronous), real concurrency (libCEED objects are not thread safe by design).

## Plan per property

| id | model | proof |
|----|-------|-------|
| C01-C06 | `Verif/Vector/State*`: vector + reference backend slots + heap of arrays | invariants by induction over histories |
| C07-C09 | `Verif/Vector/Ops`: loops over `Buf` with locks | loop invariants; element-wise spec |
| C10 | `Verif/RefCount`: objects, handle variables, histories | invariant: count = number of handles |
| C11-C18 | `Verif/Restriction/*`: kernels, dispatch, creation checks, block padding | gather/scatter spec as finite sums; adjointness by exchanging sums |
| C19 | at-points restriction | same |
| C20 | `Verif/Tensor` | loop = finite sum |
| C21-C24 | `Verif/Basis/*` | fold of contractions = product over digits, induction over `dim` |
| C25 | Chebyshev evaluation | polynomial identities |
| C26 | Fornberg recurrence | invariant over the node loop; `Polynomial.derivative` |
| C27 | Householder QR | invariant `A = Q R`, orthogonality |
| C28 | length checks | bounds derived from index arithmetic |
| C29-C32 | `Verif/Context` | byte-level store, invariants over histories |
| C33, C34 | `Verif/Ceed` | decision logic, chains by induction |
| C35 | work vector pool | invariant |
| C36 | QFunction field tables | invariant |
| C37-C43 | `Verif/Operator/*` | composition of restriction, basis, QFunction; history invariants |
| C44-C46 | assembly, multigrid | finite-sum identities over the model of the assembly loops |
| C47 | flop counts | closed forms by induction on `dim` |
| C49-C51 | object delegates, gallery registry and kernels | invariants over tables; loop = pointwise formula |
| C52 | multigrid level, `Operator/Multigrid*` | actions of the created operators as finite sums; Galerkin identity by exchanging sums |
| C53 | contractions of `backends/opt` and `backends/avx`, `Basis/Avx*` | tiles of registers as sums over sets of entries; equality with the reference contraction, carried through the application of a basis |
| C54 | operators of `backends/opt` and `backends/blocked` (any block size), `Operator/Opt*`, `Operator/BlockIn`, `Operator/Blocked*` | contents of the block vectors lane by lane = element vectors of the reference; padding lanes gather from the last element and are not scattered; same action as C37 |
| C55 | `CeedCompositeOperatorGetMultiplicity`, `Composite/Mult*` | gather of ones then scatter = number of occurrences (C04); positive iff touched; induction over sub-operators; witness for the ignored indices to skip |
| C56 | operators at points of the reference backend, `Operator/AtPoints*` | per element: contents of the shared vectors = values at the points of this element (C19, C25), stale entries beyond the points are never read; induction over the elements; invariant over histories incl. failed calls; witnesses for shared fields without basis, unset passive inputs, missing points |
| C57 | creation of projection bases, `Basis/Projection*` | pseudoinverse (C27) gives `X A = 1` and `A X` symmetric, kept by Kronecker products, hence least squares with a unique minimiser over the whole element; exactness for nested spaces and for Lagrange bases (C26); witnesses for equal point counts with different dimensions, orthogonal spaces |
| C58 | pattern of the point blocks, `Composite/PointBlock*` | closed form of the pairs written by each part (offsets of the point block restriction, C44), then the sum over the pairs with C44 for the values; uniqueness if every node belongs to an element, witness of repeated pairs otherwise |
| C59 | The table of one kind of object with its growth, creation, threefold creation, destruction and look-up; how arguments are decoded; the string macro; the stub of Fortran QFunctions. Histories as an inductive relation with a ghost map from handles to live objects; invariant by induction. Partial: destroying a copied handle twice frees the table while other objects exist; `CeedOperatorApplyAdd` does not know `FORTRAN_VECTOR_NONE`; long strings overflow; a failed `CeedQFunctionCreateInterior` uses an uninitialized pointer; with a context the error code of the Fortran function is lost; the context of a QFunction is not referenced (witnesses). |
| C60 | All vector functions of `backends/memcheck` with their interface functions, over a heap of arrays of the program, scalars of any type with any operations. Programs may write to arrays they got for reading. Invariant by induction over histories; the effect on values is given by a separate function of the call. Partial: arithmetic (`CeedVectorScale` and the like) does not change the state counter and does not respect accesses, and after a reported violation the changed copy is given to later readers (witnesses). |
| C61 | A machine of blocks of threads with device memory: a step is one memory access of some thread or the release of a barrier; a run is any interleaving; out of bounds accesses and races are distinct outcomes. All restriction kernels of `cuda-ref` except those at points (the `hip-ref` kernels have the same text), `CeedElemRestrictionOffset_Cuda`, creation and the choice of grids. A scheduling theorem (threads that own disjoint entries and otherwise read fixed entries or add atomically) reduces a launch to its threads run alone; host loops by invariants. Partial: the strided transpose and the deterministic transpose add without atomics, so strides or components that overlap race and lose contributions (witnesses); a deterministic restriction with device offsets reads device memory on the host (witness). |
| C62 | On the machine of C61, with shared memory and barriers: the tensor kernels `Interp`, `Grad`, `Weight` (passes over two shared buffers, separated by `__syncthreads`), the non-tensor kernels, the calls that choose grid and block and the checks of the interface. A barrier theorem (each phase between barriers has disjoint ownership; the state after a barrier is a function of the state before) gives a result for all schedules; the passes are the contractions of C21 by induction over the dimensions. Partial: weights in more than three dimensions are not written, `CEED_EVAL_WEIGHT` transposed writes weights where the host reports an error, no elements is an error from the driver, `CEED_EVAL_NONE` with a longer output reads behind the input (witnesses). |
| C63 | A heap of arrays on the host and on the device, vectors with the four sets of pointers of the backend (`host`/`device` valid, owned, borrowed), the functions of the backend and of the interface above it; access in the wrong memory, out of bounds or to freed arrays is undefined. Invariant over all histories: valid arrays are the owned or lent ones, agree, no two vectors share an array. The kernels run on the machine of C61 on every schedule. Partial: `CopyStrided` on CUDA 12 copies too much and out of bounds, windows are not checked on one side, arithmetic is allowed while readers have access and keeps the state, `Reciprocal` makes copies differ in single precision, failed `Copy` and `PointwiseMult` leave locks and zeros behind (witnesses). |
| C64 | `Basis/Schur*`, `Basis/SimDiag*`: the reduction to tridiagonal form, the accumulation of the reflections, the sweeps with shift and deflation, the sort and the scaling, in exact arithmetic with any square root and any tolerance. Invariants: `QᵀQ = 1` and `T = QᵀAQ` through every step; the squares of the entries off the tridiagonal grow by at most `2 n tol²` per sweep. Outcomes: decomposition, error, or division by zero only if `A` maps a proper subspace with the first unit vector to itself, which does happen (diagonal matrices, witness). Convergence is not proved. |
| C65 | `Jit/*`: strings as lists of characters, pointers as the rest of the string, the file system as a function. Specification: kinds of lines (`Line`), the target of an include (`Target`, with paths as lists of names), and putting headers in place (`Flat`). Proof by induction over `Flat`: the walk over the characters flushes complete lines at each directive. That no header comes twice, and that files which include each other never load, is proved for all files with a graph argument. Directives in comments or on an unfinished last line, empty headers and double slashes are witnesses. |
| C66 | `Gpu/Oper*`: the setup tables, the order of fields, E-vectors with validity and locks, borrowed arrays, and all launches; outcomes of launches are a parameter that must agree with some schedule of each (`Dev.Real`). Specification: `Meaning.action` of C37. Proof: the tables are characterised by the groups of fields with the same vector and restriction, then invariants for the input, QFunction and output loops; C61 and C62 give the launches. Sharing patterns on which the backend fails or loses values are witnesses. |
| C67 | `Operator/Fdm*`: the 1D matrices, the call of the eigenvalue solver of C64, assembly of the QFunction (C43), the averages, the scales, the new basis, restriction, QFunction and operator. Specification: Kronecker products, averages and separable matrices as sums and products over coordinates (`FdmSpec`). Proof: each loop is inverted (a successful run has stored the sum); the new operator is an instance of C37; congruence with Kronecker powers diagonalises the separable matrix. Partial: exactness of the solver is a hypothesis (C64), and the stiffness matrix is perturbed by the code. |
| C68 | the two quadrature functions with their recurrences, Newton loops and order of stores, over an exact ordered field; the values of `cos` and the tolerance are parameters. Specification: Legendre polynomials over ℝ, the interval integral of Mathlib and Newton's iteration | recurrence evaluates `P_n` and its derivative; differential equation and orthogonality of Legendre polynomials by integration by parts; division by the node polynomial; invariant of the last writer for the stores. Missing: convergence of the iterations from the guesses and rounding |
| C69 | `CeedOperatorLinearAssembleAddDiagonalAtPoints_Ref` on top of the model of application at points (C56): clearing of the active inputs, passive inputs, one QFunction call per unit vector, basis actions, scatter of the kept entry, and the two interface functions on a single operator. Specification: entry `t` of the action of C56 on the unit vector `t` | invariants of the work arrays over unit vectors, inputs and elements; linearity of the QFunction to sum over inputs; histories with applications and assemblies. Excluded: orientations (wrong sign), repeated nodes within an element, different restrictions of active fields; passive outputs are changed |
| C70 | `LinearAssemble` on the GPU machine of C61 (shared memory and barriers included), the packing of the bases, block sizes, orientations and launch of `CeedSingleOperatorAssemble_Cuda`; the assembled QFunction is given, in the layout of its restriction. Specification: `IsMatrix` and the sum of triples of C45 | jobs with disjoint writes between barriers; a chain of phases for the curl orientations; the sums are those of C45. Excluded: curl orientations with fewer threads than entries or on one side only (data races), adjacent gradients |
| C71 | `LinearDiagonal` on the GPU machine of C61, the tables, modes, sizes and launch of `CeedOperatorAssembleDiagonalCore_Cuda`, and the scatter by the restriction of C61 (unsigned copy or point blocks); the assembled QFunction is given. Specification: `IsMatrix` (C44) | every thread owns its entries; the positions in the tables are followed over the list of modes; the scatter is C61. Excluded: equal modes in a row with one basis (reads beyond the tables), curl orientations, entries twice in an element, active inputs without basis |
| C72 | `Operator/OptAsm*`, `Operator/BlockedAsm*`: `CeedOperatorLinearAssembleQFunctionCore_Opt` and `..._Blocked` on the operators of C54, with the work vector, the blocked strided restriction of the result (C14, C15) and its creation checks, and the memory shared by active inputs without basis. Specification: `Columns` of C43 | each lane of a block is the element of the reference backend; an invariant over the blocks for the part of the result already written, padding lanes are dropped by the block restriction; invariant over histories. Excluded: applications between assemblies, active inputs without basis on the same restriction |
| C73 | `Gpu/AsmQF*`: `CeedOperatorLinearAssembleQFunctionCore_Cuda` on the operators of C66: vectors of components that point into the arrays of the active inputs, whether applications have freed these, outputs that point into the result, the flags of the interface. Specification: `ColumnsDev` of C70 | total correctness: invariant over the columns for the components known to hold zeros and ones and for the part of the result written, an invariant between calls, applications keep the arrays of inputs with basis; composed with C70 and C71. Excluded: applications between assemblies if there are three or more active components or active inputs without basis |
| C74 | `Restriction/Life*`: objects with count, readers, base and data block; create, copies, reference copy, the getters and restorers, destroy along the chain of bases; released memory is undefined. Specification: the books of the user (`Ledger`: references held, which are copies, arrays borrowed) | invariant over all histories relating counts, readers and blocks to the books. Excluded by witnesses: copies of copies, copies made while an array is borrowed, new references after a refused destruction |
| C75 | `Operator/Fallback*`: the copy of the QFunction by AddInput and AddOutput, the copy of the operator by SetField and CheckReady on the model of C41, the request for a fallback, composites, roots and defines of the fallback `Ceed`. Specification: `CopyOf` | induction over the fields with what the copy has recorded so far; the numbers of the original come from fields that are set (induction over its history), so that the copy finds the same ones in its own order. Excluded by witnesses: fields set twice or replaced later, flop estimates, read-only contexts, defines, suboperators without fallback |
| C76 | `DevCtx/*`: the six pointers of the GPU contexts, the copies between the two memories, the interface functions around them, a heap of arrays with a memory type and contents, and the writes of a program. Specification: `Legal`, `HasVals`, `Gives`, `Doc`, `Keeps` | invariant over histories: arrays kept are in their memory and long enough, one of owned and borrowed, valid copies agree, write access has one valid copy. Excluded by witnesses: data that becomes longer than an array kept for the other memory, new data while the old data is read, data destroy functions without data |
| C77 | `CheckCtx/*`: the five pointers of the checking contexts, the interface functions around them, a heap of arrays, the calls of the data destroy function, and the writes of a program, also to arrays it should only read. Specification: `Legal`, `HasVals`, `Gives`, `Clean`, `Doc`, `Keeps` | invariant over histories: every pointer leads to its own array, long enough; a copy for writing exists exactly while access is granted; arrays of the program contain the present values. Excluded by witnesses: data on a device, and setting, taking or destroying data while it is read |
| C78 | `CheckQF/*`: the application with the copies of vectors and context that the user function gets, and what it leaves in them. Specification: `Ready`, `Runs`, `ReadsOnly`, `AllSet`, `Applied` | one lemma per loop: the state of the vectors after the inputs were granted is a function of the number of uses of each vector. Excluded by witnesses: what happens after a report, aliasing, other readers |
| C79 | `Operator/AtPointsAsm*`: the assembly on top of the model of application at points (C56, C69). Specification: `PMean.Assembled`, `PtLinear` | facts about the part of the array before the pointer are kept by each loop; the active inputs are zero between columns. Excluded by witnesses: weights with the number of an output, more outputs than inputs, operators applied before, the returned restriction |
| C80 | `Restriction/Layout*`: the layout fields set at creation and the functions reporting them, on top of the model of C11-C19. Specification: `layoutPos` (the documented formula), `SamePoints` | positions compared with those of C11 and C19. Excluded by witnesses: blocked restrictions and several components at points, entries of the array outside all elements |
| C81 | `Operator/Query*`: the loops over the fields with the reference counts of bases, restrictions and the QFunction. Specification: `Common` (the object all active fields share), `Complete`, `oneRef` | cases of the loop by induction over the fields. Excluded by witnesses: references kept on error paths, composite operators |
| C82 | `Ceed/JitPaths*`: the lists with allocated lengths and readers, the Ceeds with parents and reference counts. Specification: `IsTop` (the ancestor without parent), `Usable`, `Fits` | by the effect of each call on all Ceeds; induction over the strings for the fallback. Excluded by witnesses: defines of the fallback, refused calls |
| C48 | composite labels | case analysis/induction over sub-operators |

Where the code does not satisfy a property, the negation is proved with a concrete witness and the true part is proved
under a name ending in `_partial`; see the section "Disagreements" below, which is extended as the work proceeds.

<!-- generated from here on -->

## Disagreements

Where the code does not do what the property asks, the negation is proved on a concrete case (`_witness`), and the theorem
that remains has the suffix `_partial` or carries the exact condition. This list is made from the comments of these theorems.

* `C03_axpby_witness`: C03 fails: `CeedVectorAXPBY` with a second vector that is being written returns an error and leaves the first one locked.
* `C03_axpy_witness`: C03 fails: `CeedVectorAXPY` with a second vector that is being written returns an error and leaves the first one locked.
* `C03_copyStrided_self_witness`: C03 fails: `CeedVectorCopyStrided` of a vector to itself returns an error and leaves the vector locked for writing.
* `C03_copy_self_witness`: C03 fails: `CeedVectorCopy` of a vector to itself returns an error and leaves the vector locked for ever: no access is outstanding, yet reading is refused.
* `C03_destroy_witness`: C03 fails: a failed `CeedVectorDestroy` of the only handle has dropped the handle: a new handle made afterwards does not keep the vector alive. After create, read access, failed destroy, reference, restore, one destroy frees the vector, though two handles were made and one destroy succeeded.
* `C03_getArrayWrite_witness`: C03 fails: a refused request for device memory on a vector without data makes its (zero) data valid.
* `C03_pointwiseMult_witness`: C03 fails: `CeedVectorPointwiseMult` with a factor that is being written returns an error and leaves the result locked.
* `C05_empty_leak_witness`: C05 fails for empty vectors: an array given away with `CEED_OWN_POINTER` to a vector of length zero is not freed when the vector is destroyed.
* `C05_own_twice_witness`: C05 fails when an array is given away twice: giving the array a vector already owns to it again frees it first; the next access uses freed memory.
* `C06_empty_witness`: C06 fails for empty vectors: `CeedVectorTakeArray` succeeds without a lent array and gives a null pointer.
* `C09_negative_start_witness`: C09 fails: `CeedVectorSetValueStrided` accepts a negative start and writes before the array.
* `C09_zero_step_witness`: C09 fails: `CeedVectorCopyStrided` and `CeedVectorSetValueStrided` accept a zero step (an endless loop).
* `C10_cycle_witness`: C10 fails: `CeedCompositeOperatorAddSub` accepts an operator as its own sub-operator, which then is never destroyed.
* `C10_field_twice_witness`: C10 fails: setting a field of an operator again loses the reference to the object set first.
* `C13_blocked_check_incomplete_witness`: Blocked creation checks only the first `num_elem * elem_size` entries of the permuted offsets: three elements of two nodes in blocks of two, the last offset (1000) is beyond the L-vector, creation succeeds and `Apply` reads out of range.
* `C13_blocked_oriented_negative_witness`: `CreateBlockedOriented` does not check the number of elements: with `-1` elements it reads before the offsets.
* `C13_blocked_zero_block_size_witness`: Blocked creation divides by the block size before checking it.
* `C13_curl_one_node_witness`: A curl oriented restriction with one node per element is accepted and its kernels read past the arrays.
* `C13_strides_unchecked_witness`: User strides are not checked against the L-vector size.
* `C15_block_negative_witness`: Negative block numbers are not rejected either.
* `C15_block_off_by_one_witness`: C15: what is missing above. The check `block_size * block <= num_elem` accepts the block number `num_block` when the block size divides the number of elements; the call then reads past the offsets.
* `C16_curl_witness`: C16 fails for curl oriented restrictions: here every entry occurs once, the reported multiplicity of entry 0 is 5.
* `C19_no_elements_witness`: An at-points restriction without elements reads before the array of offsets when it is created.
* `C19_unchecked_point_witness`: Indices of points are never checked: point number 7 in an L-vector of one entry.
* `C20_strided_transpose_overwrites_witness`: C20 fails for the strided contraction in transpose mode without `add`: each of the `D` steps clears `v`, so that only the last part of `u` contributes (here 3 instead of 1 + 3).
* `C21_tolerance_witness`: C21 without exactness: if the collocation test also accepts some `e ≠ 0` (the code accepts `|e| < 1e-14`), a basis whose interpolation matrix is `[1 e; 0 1]` is applied as the identity, while `CeedBasisGetInterp` returns the given matrix, whose product with `(0, 1)` is `(e, 1)`.
* `C23_applyAdd_grad_overwrites_witness`: C23 fails with collocated points: `CeedBasisApplyAdd` in gradient mode overwrites the output (result `[-3, 3]` instead of `[7, 23]`).
* `C23_applyAdd_interp_overwrites_witness`: C23 fails with collocated points: `CeedBasisApplyAdd` in interpolation mode overwrites the output (result `[1, 2]` instead of `[11, 22]`).
* `C25_more_nodes_witness`: C25 fails with more nodes than quadrature points: with nodes -1, 0, 1 and quadrature points -1/2, 1/2, the field with node values 0, 1, 0 is the polynomial `1 - x²`, whose value at 0 is one; the value computed is 3/4, for any history.
* `C25_no_points_witness`: C25 fails with no points: after an evaluation that gave some value other than zero, the transposed evaluation with no points stores an entry other than zero, whatever its arguments.
* `C25_one_point_witness`: C25 fails with one quadrature point per direction: the arrays of Chebyshev values have one entry and two are written.
* `C25_short_output_witness`: C25, memory safety: with a correct input, an output vector without room for the values at the points is not rejected, and entries past its end are written.
* `C26_nothing_witness`: With one node `CeedBasisCreateTensorH1Lagrange` returns success without having created a basis, for all other arguments: the pointer the user goes on with is not set. The same holds for the Gauss-Lobatto rule with one point.
* `C27_singular_witness`: C27 without independence: a zero column divides zero by zero.
* `C28_null_matrix_witness`: C28 fails: the divergence of an H1 basis is accepted by the checks and dereferences a null matrix.
* `C28_weight_no_elements_witness`: C28 fails: for zero elements and an empty output, the weights of a tensor basis of dimension two read `v[0]`.
* `C29_null_description_witness`: Registration with the `NULL` description the documentation allows is undefined.
* `C30_outside_witness`: A field that does not lie inside the data is accepted, and setting it accesses memory outside the data.
* `C31_device_witness`: A failed call that asks for device memory changes the size of the data without advancing the state.
* `C31_take_witness`: Taking the data back does not advance the state.
* `C32_destroy_witness`: Destroying the context frees the array a reader still holds.
* `C32_set_witness`: Setting data frees the array a reader still holds.
* `C32_take_witness`: Data can be taken back, and then freed by its owner, while a reader holds it.
* `C33_colon_witness`: **C33, disagreement.** A backend whose prefix has a colon hides a backend that matches the whole stem: both are registered, `/a/b` matches the stem of `/a/b:c` fully, yet `CeedInit` fails.
* `C33_empty_witness`: **C33, disagreement.** With no backend registered `CeedInit` reads outside the table while writing its message.
* `C33_full_witness`: **C33, disagreement.** With a full table `CeedRegister` reports success and registers nothing.
* `C33_help_witness`: **C33, disagreement.** `CeedInit("help")` reads past the end of the string it is given.
* `C34_dangling_witness`: **C34, disagreement.** An object outliving the root: the Ceed it holds still points to the freed root, so that asking for its parent, reading an error message, or an error on it, uses freed memory.
* `C34_fallback_delegate_witness`: **C34, disagreement.** The user asks for stored errors on the root; the fallback made afterwards takes over the handler of the root, but its own delegate does not: an error on Ceed 3 ends the process instead of being stored.
* `C34_handler_witness`: **C34, disagreement.** `CeedSetErrorHandler` on the root does not reach an operator fallback made earlier.
* `C34_parent_witness`: **C34, disagreement.** The parent of an operator fallback is the fallback itself, not the root the user created: Ceed 2 is the fallback of the root 0, whose errors go to 0, yet `CeedGetParent` of 2 returns 2.
* `C35_delegate_witness`: **C35, disagreement.** A Ceed whose vectors are made by a delegate, with two references to it: after one work vector was requested and returned, one `CeedDestroy` frees the Ceed although the other reference is still held.
* `C35_null_witness`: **C35, disagreement.** Restoring a vector before any work vector was requested dereferences `NULL`.
* `C36_overflow_witness`: **C36, disagreement.** After sixteen accepted inputs, adding a seventeenth with a new name writes outside the table.
* `C37_element_size_witness`: C37 fails when the restriction and the basis of a field disagree on the number of nodes: nothing checks this (`interface/ceed-operator.c` 36-82), and the basis reads past the end of the E-vector.
* `C37_identity_passive_witness`: C37 fails for identity operators without bases on passive vectors: the active input is used instead (lines 396-405; result `+1, +2` instead of `+1, +10`).
* `C37_identity_weight_witness`: C37 fails for the identity QFunction from weights to an output without basis: the setup makes `q_vecs_out[0]` the vector that holds the weights (line 200), the application replaces its array (line 431), the weights are lost and what the E-vector happened to hold (here 7) is added instead.
* `C38_nested_witness`: `CeedOperatorApply` of a composite that contains a composite fails, after it has set the output to zero, although all operators are ready and `CeedOperatorApplyAdd` of the same composite succeeds: the property is false for nested composites.
* `C39_error_history_witness`: C39 fails after an error: an application to a vector without data (vector 3) returns an error but leaves the E-vector of the passive input locked for reading. When the passive vector has changed, all later applications fail, although an operator used for the first time succeeds with the same vectors.
* `C40_collocated_witness`: C37 and C40 fail for collocated tensor bases: the second output overwrites the first one, because `CeedBasisApplyAdd` does (C23).
* `C40_null_input_witness`: C37 and C40 fail: an operator with two inputs without basis that have the same vector and restriction dereferences a null pointer in its setup (lines 98-102), in the very first application. With separate copies of the restriction it works.
* `C40_null_output_witness`: C37 and C40 fail in the same way for outputs (lines 122-128).
* `C40_overwritten_witness`: C37 and C40 fail: the contribution of an output without basis is overwritten by an earlier output that shares its E-vector (result `+2, +20` instead of `+3, +30`).
* `C41_changed_witness`: **C41 fails** after the check: an operator found ready still accepts other objects for its fields, because the check does not make it immutable.
* `C41_refused_witness`: **C41 fails** after a refused call: setting again an active field with a restriction of another length is refused, but only after the entry was replaced by an empty one; the operator is ready nonetheless.
* `C41_twice_witness`: **C41 fails** for a field set twice: the count of fields is raised by each call, so that the input set twice makes the operator ready although the output was never set.
* `C42_cycle_witness`: **C42 fails:** an operator may be added to itself; if it has no active output, asking for its lengths recurses without end.
* `C42_incompatible_witness`: **C42 fails:** incompatible parts are not rejected when one of them gets its length after the composite knows its own; the composite is ready and reports lengths that are not those of operator 3.
* `C42_refused_witness`: **C42 fails:** a refused part leaves its output length behind. Operator 2 has an active input of length 3 only; operator 3 (lengths 4 and 5) is refused, after which operator 4 (lengths 3 and 6) is refused as well, although it agrees with operator 2.
* `C42_stale_witness`: **C42 fails** when a field is set after the operator was added: the first call reports `-1`, the second the length.
* `C43_shared_witness`: C43 fails for active inputs without basis that share a restriction, once the operator has been applied: their data are then the same part of the same E-vector (`ceed-ref-operator.c` 275-277), so a one set in the first is seen in the second, and both columns are the sum of the two.
* `C43_stale_witness`: C43 fails when the operator is applied between two assemblies: the values of the active inputs left by the application are set to zero in the first assembly only (line 505), so the first columns of the first element are wrong. The vectors have not changed (except the output of the application).
* `C44_adjacent_witness`: C44 fails if two active inputs in a row evaluate the gradient with the same basis: the components of the second are taken for further components of the first (lines 337-343), beyond the end of the matrix.
* `C44_curl_witness`: C44 fails for curl oriented restrictions: the element diagonal is scattered with the absolute values of the transformation `T` instead of taking the diagonal of `Tᵀ K T`. (`CeedElemRestrictionCreateUnsignedCopy`, line 286.) The call succeeds.
* `C44_empty_witness`: C44 fails for operators without elements: `CeedOperatorLinearAssembleDiagonal` overwrites the vector, but returns before setting it to zero (lines 2022-2024; the same in `CeedOperatorLinearAssemblePointBlockDiagonal`).
* `C44_none_witness`: C44 fails for active fields without basis: `CEED_BASIS_NONE` has zero nodes and zero components (lines 296-299), so nothing is added.
* `C44_repeated_witness`: C44 fails if an entry occurs twice in an element: the entries of the element matrix off its diagonal belong to the diagonal of the operator, but are not added.
* `C44_restrictions_witness`: C44 fails if active inputs with the same basis have different restrictions: that of the first is used for all (lines 1455-1465).
* `C44_stride_witness`: The point block diagonal fails if there are nodes beyond the first `comp_stride` entries: their blocks are placed after the end of the vector (lines 1168-1178). Backends that check offsets report an error, others write out of bounds.
* `C44_strided_witness`: A strided restriction: the point block diagonal reads offsets that do not exist (line 1169).
* `C45_adjacent_witness`: C45 fails if two active inputs in a row evaluate the gradient with the same basis: the components of the second are taken for further components of the first (`CeedOperatorAssemblyDataGetBases`, lines 1643-1660), beyond the end of the matrix.
* `C45_short_witness`: The length of `values` is not checked: a vector shorter than the number of entries reported is written beyond its end (`interface/ceed-preconditioning.c` 775-781).
* `C46_none_witness`: C46: a ready operator whose active field has no basis has no coarse operator, as it is given the coarse basis for all active fields (lines 901-906).
* `C46_passive_witness`: C46: for a ready operator without active fields the null pointer `rstr_fine` is dereferenced (line 948).
* `C47_atpoints_witness`: An operator at points with an active field taken without a basis has no estimate: `CEED_BASIS_NONE` is not a tensor basis.
* `C47_curl_witness`: C47 fails for curl oriented restrictions: the estimate counts the entries of the tridiagonal matrices outside the element as well (30 and 36 instead of 22 and 28 operations for three nodes).
* `C47_gradient_witness`: The estimate for the gradient, 120, is too small when there are fewer nodes than quadrature points: interpolation takes 60 operations and differentiation at the quadrature points 108.
* `C47_point_witness`: Evaluation at one point in the plane with a basis of 2 by 2 coefficients contracts twice: 8 and 4 operations. The estimate has 16 for it (the difference of the estimates for one point and for none, without the evaluation of polynomials).
* `C47_points_components_witness`: C47 fails at points for several components: with two components and three points 78 operations are done after 64 for the coefficients, and the estimate is 118, because components are left out of the estimate for the points.
* `C47_points_witness`: C47 fails for restrictions at points: scattering adds three values, and nothing is estimated.
* `C47_transpose_witness`: The estimate for the transpose is too large when there are fewer nodes than quadrature points: 108 for each element, and 60 operations are done.
* `C48_conflict_witness`: Sub-operators with fields of the same name but different types, or different numbers of values: asking for the label is undefined, where an error is meant to be returned.
* `C48_context_witness`: A label taken from a context directly, and not yet handed out by an operator, is accepted by any operator without sub-operators: the field of another context is written.
* `C48_late_witness`: A field registered in the context of a sub-operator after the label was made is not set, although the sub-operator has the field, and asking for the label again does not help.
* `C48_nested_witness`: A composite operator in a composite operator: asking for a label is undefined.
* `C48_replaced_witness`: When the context of the QFunction of a sub-operator is replaced after the label was made, setting writes to the new context, which does not have the field.
* `C49_second_witness`: **C49, disagreement.** Setting a second object delegate is undefined behaviour: the new entry of the table is not initialised before it is overwritten by reference.
* `C50_prefix_witness`: **C50, disagreement.** A registered name cannot be created when a longer name starting with it was registered first: `A` is registered, but asking for it is an error.
* `C53_avx_overrun_witness`: C53 fails: with one element, five components, two nodes and one quadrature point, the reference backend interpolates and the `avx` backend reads beyond the vector of results.
* `C54_in_place_witness`: C54 fails when the active input is also the output (`CeedOperatorApplyAdd(op, u, u)`): the reference backend restricts the whole input before it adds anything, a backend with blocks reads it block by block. With one element per block the second element sees what the first one has added; with eight elements per block the result is that of the reference.
* `C54_longer_vector_witness`: C54 fails for active inputs (and outputs) longer than the restriction asks for: the reference backend accepts them, a backend with blocks returns an error, because `CeedElemRestrictionApplyBlock` compares lengths exactly (`interface/ceed-elemrestriction.c` 1413-1421).
* `C55_long_witness`: A vector longer than the active vector of the sub-operators is accepted, and the multiplicity of the sub-operator is read beyond its end (`interface/ceed-preconditioning.c` 2537-2539).
* `C55_nested_witness`: A composite operator may contain composite operators, but the multiplicity of its nodes is then refused: the active restriction of a sub-operator is asked for, and its description, a null pointer for composite operators, is wrong (`interface/ceed-operator.c` 284-296).
* `C55_skip_witness`: C55 fails for the indices to skip: the `continue` belongs to the inner loop, and the sub-operators are counted all the same (`interface/ceed-preconditioning.c` 2523-2526).
* `C56_no_points_witness`: `CeedOperatorCheckReady` accepts an operator at points whose points were never set; its application dereferences a null pointer.
* `C56_two_active_inputs_witness`: The active input used by two fields without basis and with the same restriction: the second field sees zeros. With two restrictions that are equal but not the same object it sees the input.
* `C56_two_outputs_witness`: Two outputs without basis into the same vector with the same restriction: the first is lost. With two restrictions that are equal but not the same object both are added.
* `C56_unset_witness`: A passive input that was never written (vector 2) is read as zeros and no error is reported; the reference backend reports an error for operators on quadrature points.
* `C57_dimension_witness`: C57 needs more than the check of the code: bases with the same number of quadrature points but of different dimension are accepted; the basis made for four nodes expects two.
* `C57_orthogonal_witness`: C57 needs its hypothesis on orthogonal functions: the projection is zero and the creation of a tensor basis with it divides by zero (`C27_singular_witness`).
* `C57_outside_witness`: In the other direction the 1D matrix is read outside its array.
* `C58_empty_witness`: A composite without sub-operators: the list of its sub-operators is read.
* `C58_unique_witness`: The documentation promises that the pairs are unique; the pairs of a node that belongs to no element are all `(0, 0)`.
* `C59_apply_add_witness`: `FORTRAN_VECTOR_NONE` is known to `CeedOperatorApply` and to `CeedOperatorSetField`, but `CeedOperatorApplyAdd` reads the table at `-6`.
* `C59_context_witness`: If the program destroys its handle of the context, which the C interface allows, the next evaluation uses freed memory.
* `C59_copy_witness`: A copy of a handle that was already destroyed is destroyed as well, which does nothing in C: the second destruction frees the table while the other vector exists, and its handle reads freed memory.
* `C59_interior_witness`: If the creation of the first QFunction fails, a pointer that was never initialized is used.
* `C59_string_witness`: A Fortran string of 1024 characters is written past the end of the array.
* `C59_stub_witness`: With a context, an error in the Fortran function is lost.
* `C60_arithmetic_reading_witness`: **C60, disagreement.** Arithmetic is not rejected while somebody reads, and then the reader is told that they changed the array, which they did not.
* `C60_arithmetic_state_witness`: **C60, disagreement.** Arithmetic changes the values but not the state counter, by which users (and operators that keep passive inputs) tell whether the values have changed.
* `C60_arithmetic_writing_witness`: **C60, disagreement.** Arithmetic is not rejected while somebody has write access either, and its result is lost when the access ends.
* `C60_stale_witness`: **C60, disagreement.** After a reported violation the changed copy is kept: a later reader gets it, although the vector has new values.
* `C61_deterministic_device_offsets_witness`: A deterministic backend given offsets in device memory reads them on the host (`ceed-cuda-ref-restriction.c` 604): undefined for every restriction with nodes.
* `C61_deterministic_overlap_witness`: The deterministic E-vector to L-vector kernels use one thread per L-vector node and add without atomics (`cuda-ref-restriction-offset.h` 64). When components of different nodes share an entry, which the offsets and component stride allow, two threads race, and a schedule loses a contribution: entry 1 ends as 2 (node 1, component 0), or as 3 (node 0, component 1) but should be 5.
* `C61_strided_overlap_witness`: The strided E-vector to L-vector kernel adds without atomics (`cuda-ref-restriction-strided.h` 37): for strides that give one entry to two nodes, which creation accepts, there is a data race, and a schedule that loses a contribution: the entry ends as 7, the contributions are 5 and 7.
* `C62_block_limit_witness`: A block of more threads than the device accepts is refused: for a non-tensor basis with too many quadrature points.
* `C62_no_elements_witness`: With no elements, a call that the host backend executes as doing nothing is refused by the driver of the device, as a grid of no blocks.
* `C62_none_longer_witness`: If the output is longer, which the checks of `CeedBasisApply` allow, entries behind the end of the input are read.
* `C62_weight_transpose_witness`: `CEED_EVAL_WEIGHT` with `CEED_TRANSPOSE`, an error on the host (`backends/ref/ceed-ref-basis.c` 176), writes the weights on the device, after setting the vector to zero.
* `C62_weights_dim4_witness`: In more than three dimensions the call succeeds and writes no weights.
* `C63_copy_locked_witness`: `CeedVectorCopy` of a vector to itself fails and leaves the vector locked.
* `C63_copy_strided_bounds_witness`: The same, with the whole vector as the window: the copy leaves the arrays.
* `C63_copy_strided_witness`: `CeedVectorCopyStrided` with a step above one, on CUDA 12 or later: `CeedVectorCopyStrided_Cuda` passes the length of the window to cuBLAS as the number of entries to copy (`ceed-cuda-ref-vector.c` 253-271), so that a window of two entries, of which one is to be copied, changes two.
* `C63_mult_failed_witness`: `CeedVectorPointwiseMult` that fails because a factor is locked has set the result to zero if it had no values.
* `C63_reader_witness`: `CeedVectorScale` succeeds while access for reading is granted, and does not change the state of the vector: the reader's array is no longer the vector, and neither the lock nor the state tells.
* `C63_reciprocal_witness`: In single precision, `CeedVectorReciprocal` leaves two valid arrays with different values: the host compares to `CEED_EPSILON` (6e-08), the device to 1e-16.
* `C63_set_value_strided_empty_witness`: `CeedVectorSetValueStrided` fails for a vector of length zero, to which `CeedVectorSetValue` may be applied.
* `C63_set_value_strided_witness`: `CeedVectorSetValueStrided` does not check where the window starts.
* `C64_diagonal_mass_witness`: C64 fails for a diagonal second matrix with at least three rows, such as the mass matrix of a basis whose nodes are its quadrature points, whatever the first matrix is.
* `C64_reducible_witness`: C64 fails for every matrix with at least three rows whose first column is zero below the diagonal, such as a diagonal matrix: the function divides zero by zero.
* `C65_comment_witness`: A directive within a comment is carried out, and the character before it is lost, here the one that begins the comment.
* `C65_cycle_witness`: `#pragma once` does not protect headers that include each other: they are never loaded, however large the stack is.
* `C65_double_slash_witness`: After a double slash `..` leads to another file.
* `C65_empty_witness`: An empty header is an error.
* `C65_last_line_witness`: A directive on a last line without a line break is computed with a null pointer.
* `C65_quote_witness`: Quotes in a comment after the name of another header are taken for the name.
* `C65_root_witness`: The parent of a directory at the root cannot be named.
* `C65_two_names_witness`: The source file itself is not known as included: a header that comes back to it by name repeats it, until the stack is full. Likewise a path with a double slash is another name for the same file, which is then put in place twice.
* `C66_between_witness`: An output without basis between two outputs that share vector and restriction: `CeedOperatorApplyAdd` fails, as the vector whose array is given back is found by position and not by field (`ceed-cuda-ref-operator.c` 587). The fields are set correctly.
* `C66_direct_input_witness`: A passive input without basis and with backend strides, followed by an input with basis of the same vector and restriction: no E-vector is filled for the second.
* `C66_lost_output_witness`: Two active outputs with the same restriction, the first without basis, the second with basis: the application succeeds, but the values of the first are lost, and what the work vector still holds, the gathered input, is added instead (here `1` and `2`). The action adds `3 + 2 * 3` and `6 + 2 * 6`.
* `C66_shared_output_witness`: In the other order, and for two outputs without basis, it fails.
* `C66_work_vector_witness`: Two active inputs with different restrictions, the first without basis: the work vector is still read when the second is to be gathered into it.
* `C67_cancel_witness`: C67 fails for coefficients of different signs: they cancel, and the code divides by zero.
* `C67_collocated_witness`: C67 fails for bases with at least three nodes in each direction whose mass matrix is diagonal, such as those with nodes at the quadrature points: no inverse is created, and the eigenvalue solver divides zero by zero.
* `C67_modes_witness`: C67 fails for operators that are tested in another mode than their input is evaluated in: the code expects as many entries at a point as the square of the number of input entries, and reads after the end of the assembled QFunction.
* `C67_no_basis_witness`: C67 fails if the first active input has no basis: the call does not return an error, but aborts the program.
* `C67_one_node_witness`: C67 fails for bases with one node in each direction: no inverse is created.
* `C67_small_witness`: C67 fails for an element whose coefficients are small compared with those of another element (the bound is `100 eps max` with `eps = 1/1000000`): the scales of the second element are those for the coefficient `1`.
* `C68_gauss_witness`: C68 (counterexample): no points, or minus one, are not refused; the function divides zero by zero, or writes before its arrays.
* `C69_empty_witness`: Assembling (not adding) the diagonal of an operator without elements leaves the vector as it was, though the diagonal is zero.
* `C69_oriented_witness`: With an oriented restriction, the entries of flipped nodes have the wrong sign: the operator maps `(5, 7)` to `(5, 14)`, but the assembled diagonal is `(1, -2)`.
* `C69_passive_output_witness`: Assembling the diagonal changes a passive output: the vector 0 held 1, 2, 4.
* `C70_adjacent_witness`: C70 fails if two active inputs in a row evaluate the gradient with the same basis, as on the host (C45): the matrices are read beyond their end (`ceed-cuda-ref-operator.c` 1613-1623).
* `C70_curl_fallback_witness`: C70 fails for curl oriented restrictions if an element has more entries than a block may have threads (for example edge elements of degree 3 on hexahedra: 144 nodes, 1024 threads). The fallback then has one thread for each column, which goes through the rows; the shared array `s_C` is overwritten for the next row while another thread may still be reading it, as there is no barrier at the end of the loop (`cuda-ref-operator-assemble.h` 77-83). With two threads for four entries, there is a data race and a schedule on which the second entry ends as 0 instead of -10.
* `C70_curl_input_witness`: C70 fails if only the restriction of the inputs is curl oriented and there are several components: `s_C` is overwritten for the next component while another thread may still be reading it, as only curl oriented outputs have a second barrier (line 90). There is a data race and a schedule on which the second entry ends as -7 instead of -4.
* `C70_curl_output_witness`: The same if only the restriction of the outputs is curl oriented, with `s_CT`: the third entry ends as -3 instead of 0.
* `C71_adjacent_witness`: C71 fails if two active inputs in a row are values with the same basis: the kernel takes the second for the next component of the first (`cuda-ref-operator-assemble-diagonal.h` 77-78) and reads beyond the end of the matrix. The host assembles the same operator correctly (the components are only counted when there are several).
* `C71_curl_witness`: C71 fails for curl oriented restrictions as C44 does: the diagonals of the elements are scattered with the absolute values of the transformation (`ceed-cuda-ref-operator.c` 1397).
* `C71_repeated_witness`: C71 fails if an entry occurs twice in an element, as C44 does.
* `C72_blocked_empty_witness`: Without elements the assembly succeeds on the reference backend and on `opt` and returns an empty vector; on the `blocked` backend it fails, as the arrays of the outputs have never been set (lines 694-706), and it fails again with another error, as the work vector stays locked.
* `C72_blocked_shared_witness`: C72 fails on the `blocked` backend for active inputs without basis that share a restriction once the operator has been applied: their arrays are then the same memory (lines 331-336), and the first assembly after the application returns the sum of the two columns; before any application it is right.
* `C72_blocked_stale_witness`: C72 fails on the `blocked` backend as well when the operator is applied between two assemblies: the values of the active inputs left by the application are set to zero in the first assembly only (`ceed-blocked-operator.c` 560-575).
* `C72_shared_witness`: C72 fails for active inputs without basis that share a restriction: they share memory on these backends (`ceed-opt-operator.c` 160-163, 300-306), so a one set in the first is seen in the second, and both columns are the sum of the two. The reference backend separates them until the first application (`C43_shared_witness`).
* `C72_stale_witness`: C72 fails when the operator is applied between two assemblies, as on the reference backend (`C43_stale_witness`): the values of the active inputs left by the application are set to zero in the first assembly only (`ceed-opt-operator.c` 550-565), so the first columns of the first block are wrong.
* `C73_dangling_witness`: An active input without basis: after an assembly and an application, the next assembly writes through a pointer to an array that the application has freed (`ceed-cuda-ref-operator.c` 433 and 1038, `backends/cuda/ceed-cuda-common.c` 72-76).
* `C73_empty_witness`: Without elements there is nothing to assemble, yet the assembly fails, while an application succeeds.
* `C73_stale_witness`: Three active components: after an assembly and an application, the first column of the next assembly is wrong, as the second component still holds the values of the application (3 and 6 instead of 0): assembled values are wrong although every call succeeds. `ceed-cuda-ref-operator.c` 1036-1041 clears only the component set before, and the arrays are set to zero only when the vectors of components are made (line 977).
* `C74_copy_of_copy_witness`: **A copy of a copy**: the reference of the first copy to the original is released when the second one is made. The user releases the original, as they may, and the first copy, to which they hold a reference, works with released memory.
* `C74_copy_while_reading_witness`: **A copy made while an array is borrowed** counts that array too: the user gives it back, and the copy can still not be released.
* `C74_refused_witness`: **A refused destruction** takes away the reference nevertheless: after the array was given back, the user makes a second reference and releases the first one; the second one points to released memory.
* `C74_replace_witness`: **A reference that replaces one which cannot be released**: an error is returned and the destination is left alone, but the new reference was counted; the user releases all they hold, and the restriction is never released.
* `C74_restore_witness`: **Giving back what was not borrowed** is not detected, and makes the restriction impossible to release.
* `C75_composite_witness`: **C75 fails** for composite operators with a suboperator whose `Ceed` has no fallback: the missing fallback is dereferenced.
* `C75_defines_witness`: **C75 fails** for defines: the fallback `Ceed` gets them as source roots.
* `C75_flops_witness`: **C75 fails** for the estimate of the work of a QFunction: the fallback has none, so that estimates of the flops of the fallback operator fail.
* `C75_stale_witness`: **C75 fails** once a field is replaced: the operator accepts another vector for its input, but its fallback, made before, keeps the old one.
* `C75_twice_witness`: **C75 fails** for a field set twice: the operator passes the readiness check without its output, and the request for its fallback dereferences the missing field.
* `C75_writable_witness`: **C75 fails** for contexts that the user function does not write: the fallback takes the shared context for writing.
* `C76_dangling_witness`: New data is accepted while the old data is read: the array that is read is freed.
* `C76_overwritten_witness`: **C76**: the array lent is also written to after the program has set other data, which it does not expect: the new values are copied to the array that was lent for the data set before.
* `C76_resize_lent_witness`: **C76** is false for an array lent before: the program lends an array of one byte on the device, then sets new data of two bytes on the host. The array it has lent is overrun by the next access on the device.
* `C76_resize_witness`: **C76** is false for data that becomes longer: a context of one byte is read on the device, then gets new data of two bytes on the host. The array on the device is still the one of one byte, so the next access on the device copies two bytes to it.
* `C76_undestroyed_witness`: A context with a data destroy function and without data cannot be destroyed, and cannot get data.
* `C77_device_witness`: Data on a device is refused, but the data that the context had before is lost.
* `C77_field_witness`: After a change was reported, fields cannot be set any more, although no access is granted: every such call makes the same report.
* `C77_leak_witness`: A context can be destroyed while it is read. The copy for readers is not freed.
* `C77_null_witness`: The data destroy function of a context with copied data is called with a null pointer.
* `C77_reset_longer_witness`: With new data that is longer, the check of the copy for readers runs over its end.
* `C77_reset_witness`: New data is accepted while the old data is read. The next reader is granted the old values.
* `C77_stale_witness`: After a change was reported, the changed copy is kept: the next reader is granted the changed values, and is told that it has changed them.
* `C77_take_witness`: Data can be taken while it is read. Then access for reading cannot be given back: a null pointer is read.
* `C77_undestroyed_witness`: A data destroy function for a device is accepted. Then the context cannot be destroyed and cannot get data.
* `C78_alias_witness`: **C78**: a vector that is used as input and as output is refused, and the input stays locked: it can not be written to any more.
* `C78_failed_witness`: **C78**: after the user function has failed, its inputs and outputs stay locked.
* `C78_locked_witness`: **C78**: after an unset output was reported, its vector and the context stay locked: the right function can not be applied any more, since access to the output is refused, and the number of readers of the context never returns to 0.
* `C78_longer_witness`: **C78**: a vector that is longer than the output has its other entries marked as unset: the values it held there are lost, without an error.
* `C78_other_reader_witness`: **C78**: a change of an input is not reported by the application if somebody else reads the vector at that time: the application succeeds, and the changed values are what the next reader gets.
* `C79_more_outputs_witness`: Line 1166: there may be no input with the number of the output. Then a null pointer is used.
* `C79_restriction_witness`: The array is stored element by element, the returned restriction reads it point by point: on element 0, whose point has number 2, it reads 7 and 7 where the columns are 5 and 7.
* `C79_stale_inputs_witness`: Active inputs keep the values of an application: the columns of 5 u + 7 v for a new operator, and for one that was applied before. The second input is then not zero in the first column. (For the run, the square root used by the evaluation at points is replaced by the identity; the values left behind by the application do not matter.)
* `C79_weights_cleared_witness`: `backends/ref/ceed-ref-operator.c` 1166: the array of the input that has the number of the active output is set to zero. If these are the weights, the assembled QFunction is zero, though the operator differs from the one above in the order of the inputs only.
* `C80_blocked_layout_witness`: The reported E-vector layout of a blocked restriction is not the one of its data: two elements of two nodes in one block; node 1 of element 0 is at position 2 of the E-vector and reported at position 1, which holds node 0 of element 1.
* `C80_compatible_witness`: Two restrictions with the same points in every element whose arrays differ in an entry that belongs to no element are reported incompatible.
* `C80_points_layout_witness`: The reported E-vector layout of an at-points restriction gives the same position to all components of a point: two points in one element, two components; the second component of point 0 is at position 2 and reported at position 0.
* `C81_ambiguous_leak_witness`: When active inputs have different bases, the call returns an error and the second basis keeps a reference nobody knows of; the first one is left in the variable of the caller.
* `C81_composite_witness`: The null pointer documented for composite operators is not returned: the call is an error.
* `C81_incomplete_leak_witness`: An operator that is not complete is refused, and its QFunction keeps a reference nobody knows of: it is never freed.
* `C81_sub_setup_witness`: `GetSubByName` is documented to make sure that the operator is set up; it does not.
* `C82_destroy_refused_witness`: A refused `CeedDestroy` has already given up the reference: giving the list back then frees the `Ceed`, and the next `CeedDestroy` of the handle, which was not reset, uses freed memory.
* `C82_fallback_defines_witness`: The compiler defines of a `Ceed` are not passed to its fallback, but become source directories of it.
* `C82_fallback_late_witness`: What is added after the fallback was made does not reach it.
* `C82_refused_leak_witness`: An addition that is refused keeps a reference to the `Ceed` nobody knows of: it is never freed.

## Axioms of each theorem

Output of `#print axioms` for the 790 theorems of MANIFEST.json, without the common prefix `Verif.`.

* no axioms (15 theorems): `Fortran.C59_context_witness`, `Fortran.C59_interior_witness`, `Fortran.C59_string_witness`, `Fortran.C59_stub_witness`, `Gpu.C61_layout`, `JitPaths.C82_destroy_refused_witness`, `JitPaths.C82_fallback_defines_witness`, `JitPaths.C82_fallback_late_witness`, `JitPaths.C82_refused_leak_witness`, `Operator.C75_defines_witness`, `Query.C81_ambiguous_leak_witness`, `Query.C81_composite_witness`, `Query.C81_incomplete`, `Query.C81_incomplete_leak_witness`, `Query.C81_sub_setup_witness`
* `Classical.choice`, `Quot.sound`, `propext` (577 theorems): `Basis.C20_adjoint`, `Basis.C20_formula`, `Basis.C20_linear`, `Basis.C20_strided`, `Basis.C20_strided_transpose_partial`, `Basis.C21_interp_partial`, `Basis.C21_nontensor`, `Basis.C21_tolerance_witness`, `Basis.C22_creation_partial`, `Basis.C22_grad_partial`, `Basis.C23_adjoint_nontensor`, `Basis.C23_adjoint_tensor`, `Basis.C23_applyAdd_nontensor`, `Basis.C23_applyAdd_tensor_partial`, `Basis.C24_weight_nontensor`, `Basis.C24_weight_tensor`, `Basis.C24_weight_transpose`, `Basis.C25_accepts`, `Basis.C25_add_partial`, `Basis.C25_adjoint_partial`, `Basis.C25_evaluates_partial`, `Basis.C25_fresh`, `Basis.C25_lagrange`, `Basis.C25_more_nodes_witness`, `Basis.C25_no_points_fresh`, `Basis.C25_no_points_witness`, `Basis.C25_one_point_witness`, `Basis.C25_reproduces_partial`, `Basis.C25_shapes_exist`, `Basis.C25_short_output_witness`, `Basis.C25_transpose_partial`, `Basis.C25_weight`, `Basis.C26_create`, `Basis.C26_independent`, `Basis.C26_reproduces`, `Basis.C26_tables`, `Basis.C26_usable_partial`, `Basis.C27_collocated`, `Basis.C27_least_squares`, `Basis.C27_matmul`, `Basis.C27_pseudoinverse`, `Basis.C27_qr`, `Basis.C27_singular_witness`, `Basis.C28_nontensor_partial`, `Basis.C28_tensor_partial`, `Basis.C53_avx_contraction_partial`, `Basis.C53_avx_nontensor_partial`, `Basis.C53_avx_tensor_partial`, `Basis.C53_room_exact`, `Basis.C57_dimension_witness`, `Basis.C57_exact_nontensor`, `Basis.C57_exact_tensor`, `Basis.C57_identity_nontensor`, `Basis.C57_identity_tensor`, `Basis.C57_lagrange`, `Basis.C57_nested`, `Basis.C57_nontensor`, `Basis.C57_orthogonal_witness`, `Basis.C57_outside_witness`, `Basis.C57_tensor`, `Basis.C64_diagonal_mass_witness`, `Basis.C64_eigenpairs`, `Basis.C64_reducible_witness`, `Basis.C64_schur_partial`, `Basis.C64_simdiag_partial`, `Ceed.C33_defined`, `Ceed.C33_fails`, `Ceed.C33_help`, `Ceed.C33_order`, `Ceed.C33_select`, `Ceed.C33_select_plain`, `Ceed.C34_error`, `Ceed.C34_handler`, `Ceed.C34_parent_partial`, `Ceed.C34_reset`, `Ceed.C35_destroy`, `Ceed.C35_exclusive`, `Ceed.C35_get_partial`, `Ceed.C35_lifetime_partial`, `Ceed.C35_pair`, `Ceed.C35_restore`, `Ceed.C35_restore_foreign`, `CheckCtx.C77_access_partial`, `CheckCtx.C77_defined_partial`, `CheckCtx.C77_destroyed_partial`, `CheckCtx.C77_documented_partial`, `CheckCtx.C77_failed_partial`, `CheckCtx.C77_lent_partial`, `CheckCtx.C77_no_leak_partial`, `CheckCtx.C77_private_partial`, `CheckCtx.C77_readers_partial`, `CheckCtx.C77_reports_partial`, `CheckQF.C78_applied_partial`, `CheckQF.C78_changed_partial`, `CheckQF.C78_context_partial`, `CheckQF.C78_reports_partial`, `CheckQF.C78_unset_partial`, `Composite.C38_apply`, `Composite.C38_apply_add`, `Composite.C38_apply_add_succeeds`, `Composite.C38_apply_succeeds_partial`, `Composite.C38_nested_fails`, `Composite.C38_order`, `Composite.C42_accept_partial`, `Composite.C42_edit`, `Composite.C42_report_partial`, `Composite.C42_single_partial`, `Composite.C42_stable`, `Composite.C44_composite_add_partial`, `Composite.C44_composite_block_diagonal_partial`, `Composite.C44_composite_block_partial`, `Composite.C44_composite_diagonal_partial`, `Composite.C44_composite_matrix`, `Composite.C45_composite_partial`, `Composite.C58_composite_partial`, `Composite.C58_incompatible`, `Composite.C58_pattern`, `Composite.C58_single_partial`, `Composite.C58_unique_partial`, `Context.C29_all`, `Context.C29_duplicate`, `Context.C29_new`, `Context.C29_retrieve`, `Context.C30_disjoint`, `Context.C30_outside_witness`, `Context.C30_set_get`, `Context.C30_succeeds`, `Context.C31_bump`, `Context.C31_equal_partial`, `Context.C31_monotone`, `Context.C32_defined`, `Context.C32_exclusive`, `Context.C32_read_iff`, `Context.C32_stable_partial`, `Context.C32_valid_partial`, `Context.C32_write_iff`, `DevCtx.C76_coherent_partial`, `DevCtx.C76_defined_partial`, `DevCtx.C76_documented_partial`, `DevCtx.C76_exclusive_partial`, `DevCtx.C76_failed_partial`, `DevCtx.C76_no_leak_partial`, `DevCtx.C76_readers_partial`, `DevCtx.C76_reading_partial`, `DevVec.C63_arrays`, `DevVec.C63_coherent`, `DevVec.C63_copy_locked_witness`, `DevVec.C63_copy_strided_bounds_witness`, `DevVec.C63_copy_strided_witness`, `DevVec.C63_documented`, `DevVec.C63_failed_partial`, `DevVec.C63_lent`, `DevVec.C63_mult_failed_witness`, `DevVec.C63_no_leak`, `DevVec.C63_others`, `DevVec.C63_reader_witness`, `DevVec.C63_reading_partial`, `DevVec.C63_reciprocal_witness`, `DevVec.C63_returned`, `DevVec.C63_safe`, `DevVec.C63_separate`, `DevVec.C63_set_value_strided_empty_witness`, `DevVec.C63_set_value_strided_witness`, `DevVec.C63_values_unique`, `DevVec.C63_writing`, `Flops.C47_at_points_partial`, `Flops.C47_average_points`, `Flops.C47_collocated`, `Flops.C47_composite`, `Flops.C47_curl_gather`, `Flops.C47_curl_scatter`, `Flops.C47_excess_one`, `Flops.C47_gather`, `Flops.C47_gradient_other`, `Flops.C47_gradient_partial`, `Flops.C47_interp`, `Flops.C47_nontensor_half`, `Flops.C47_operator_partial`, `Flops.C47_points_components_witness`, `Flops.C47_points_gather`, `Flops.C47_points_scatter`, `Flops.C47_same_basis`, `Flops.C47_same_points`, `Flops.C47_same_restriction`, `Flops.C47_scatter`, `Flops.C47_transpose_general`, `Flops.C47_transpose_partial`, `Flops.C47_unset`, `Flops.C47_weight`, `Fortran.C59_apply_partial`, `Fortran.C59_designates_partial`, `Fortran.C59_destroy`, `Fortran.C59_failure`, `Fortran.C59_fresh`, `Fortran.C59_fresh_three`, `Fortran.C59_interior_partial`, `Fortran.C59_no_reuse`, `Fortran.C59_refused`, `Fortran.C59_restart`, `Fortran.C59_set_field`, `Gpu.C61_create`, `Gpu.C61_deterministic_device_offsets_witness`, `Gpu.C61_deterministic_overlap_witness`, `Gpu.C61_gather`, `Gpu.C61_scatter_atomic`, `Gpu.C61_scatter_deterministic_partial`, `Gpu.C61_scatter_strided_partial`, `Gpu.C61_strided_overlap_witness`, `Gpu.C62_grad`, `Gpu.C62_interp`, `Gpu.C62_no_elements_witness`, `Gpu.C62_none`, `Gpu.C62_nontensor`, `Gpu.C62_nontensor_weights`, `Gpu.C62_same_as_host`, `Gpu.C62_weight_transpose_witness`, `Gpu.C62_weights_dim4_witness`, `Gpu.C62_weights_partial`, `Gpu.C63_kernel_axpby`, `Gpu.C63_kernel_axpy`, `Gpu.C63_kernel_copy_strided`, `Gpu.C63_kernel_mult`, `Gpu.C63_kernel_reciprocal`, `Gpu.C63_kernel_scale`, `Gpu.C63_kernel_set_value`, `Gpu.C63_kernel_set_value_strided`, `Gpu.C66_apply_add_partial`, `Gpu.C66_apply_alias_partial`, `Gpu.C66_apply_partial`, `Gpu.C66_between_witness`, `Gpu.C66_devices`, `Gpu.C66_direct_input_witness`, `Gpu.C66_lost_output_witness`, `Gpu.C66_reference_partial`, `Gpu.C66_restriction_in`, `Gpu.C66_restriction_out`, `Gpu.C66_restriction_out_deterministic_partial`, `Gpu.C66_restriction_out_strided_partial`, `Gpu.C66_schedule_partial`, `Gpu.C66_shared_output_witness`, `Gpu.C66_weights_partial`, `Gpu.C66_work_vector_witness`, `Gpu.C70_assemble_partial`, `Gpu.C70_bases_rejected`, `Gpu.C70_host_partial`, `Gpu.C70_large_rejected`, `Gpu.C70_succeeds`, `Gpu.C71_bases_rejected`, `Gpu.C71_block_partial`, `Gpu.C71_block_scatter`, `Gpu.C71_diagonal_partial`, `Gpu.C71_large_rejected`, `Gpu.C71_scatter`, `Gpu.C71_succeeds`, `Gpu.C73_again_partial`, `Gpu.C73_apply`, `Gpu.C73_apply_add`, `Gpu.C73_build_partial`, `Gpu.C73_columns_partial`, `Gpu.C73_columns_two`, `Gpu.C73_dangling_witness`, `Gpu.C73_diagonal_partial`, `Gpu.C73_empty_witness`, `Gpu.C73_matrix_partial`, `Gpu.C73_nothing`, `Gpu.C73_reference`, `Gpu.C73_reuse`, `Gpu.C73_schedule_partial`, `Gpu.C73_stale_witness`, `Gpu.C73_succeeds_partial`, `Gpu.C73_update_partial`, `Jit.C65_comment_witness`, `Jit.C65_cycle`, `Jit.C65_cycle_witness`, `Jit.C65_double_slash_witness`, `Jit.C65_empty_witness`, `Jit.C65_last_line_witness`, `Jit.C65_load_more_partial`, `Jit.C65_load_partial`, `Jit.C65_normalize`, `Jit.C65_once`, `Jit.C65_quote_witness`, `Jit.C65_root_witness`, `Jit.C65_two_names_witness`, `JitPaths.C82_destroy_refused`, `JitPaths.C82_lent_unchanged`, `Labels.C48_answers`, `Labels.C48_first`, `Labels.C48_foreign`, `Labels.C48_found`, `Labels.C48_late_witness`, `Labels.C48_outdated`, `Labels.C48_reads`, `Labels.C48_restore`, `Labels.C48_same`, `Labels.C48_set_partial`, `Labels.C48_single`, `Labels.C48_single_found`, `Labels.C48_stale`, `Labels.C48_succeeds`, `Labels.C48_type`, `Memcheck.C60_defined`, `Memcheck.C60_error_keeps`, `Memcheck.C60_lent`, `Memcheck.C60_other_arrays`, `Memcheck.C60_read`, `Memcheck.C60_restore_read`, `Memcheck.C60_state_partial`, `Memcheck.C60_values`, `Memcheck.C60_violation`, `Memcheck.C60_write`, `Operator.C37_after_assembly`, `Operator.C37_after_assembly_succeeds`, `Operator.C37_apply`, `Operator.C37_apply_add`, `Operator.C37_apply_add_succeeds`, `Operator.C37_apply_alias`, `Operator.C37_apply_succeeds`, `Operator.C39_assembly_history`, `Operator.C39_history`, `Operator.C39_history_success_partial`, `Operator.C40_sharing_partial`, `Operator.C41_accept`, `Operator.C41_applicable`, `Operator.C41_changed_witness`, `Operator.C41_consistent`, `Operator.C41_ready_partial`, `Operator.C41_refused_witness`, `Operator.C41_stored`, `Operator.C41_twice_witness`, `Operator.C41_unchangeable_partial`, `Operator.C43_action`, `Operator.C43_apply`, `Operator.C43_build_partial`, `Operator.C43_columns_partial`, `Operator.C43_columns_single`, `Operator.C43_layout`, `Operator.C43_reuse`, `Operator.C43_succeeds`, `Operator.C43_update_partial`, `Operator.C43_vectors`, `Operator.C44_add_partial`, `Operator.C44_add_single_partial`, `Operator.C44_block_diagonal_partial`, `Operator.C44_block_partial`, `Operator.C44_block_succeeds`, `Operator.C44_diagonal_partial`, `Operator.C44_matrix`, `Operator.C44_rejects`, `Operator.C44_reuse_partial`, `Operator.C44_succeeds`, `Operator.C45_assemble_partial`, `Operator.C45_assemble_single_partial`, `Operator.C45_bases_rejected`, `Operator.C45_reuse_partial`, `Operator.C45_succeeds`, `Operator.C45_symbolic`, `Operator.C46_apply`, `Operator.C46_coarse`, `Operator.C46_composite`, `Operator.C46_created`, `Operator.C46_errors`, `Operator.C46_exact`, `Operator.C46_none_witness`, `Operator.C46_passive_witness`, `Operator.C46_refused`, `Operator.C46_transpose`, `Operator.C52_coarsened`, `Operator.C52_galerkin`, `Operator.C54_apply`, `Operator.C54_apply_add`, `Operator.C54_apply_add_succeeds`, `Operator.C54_apply_succeeds`, `Operator.C54_as_reference`, `Operator.C54_blocked_apply`, `Operator.C54_blocked_apply_add`, `Operator.C54_blocked_apply_add_succeeds`, `Operator.C54_blocked_apply_succeeds`, `Operator.C54_blocked_as_reference`, `Operator.C55_multiplicity_partial`, `Operator.C55_rejected`, `Operator.C55_rejected_composite`, `Operator.C56_apply_add_partial`, `Operator.C56_apply_add_succeeds_partial`, `Operator.C56_apply_partial`, `Operator.C56_apply_succeeds_partial`, `Operator.C56_no_points_witness`, `Operator.C56_two_active_inputs_witness`, `Operator.C56_two_outputs_witness`, `Operator.C56_unset_witness`, `Operator.C67_apply`, `Operator.C67_average`, `Operator.C67_cancel_witness`, `Operator.C67_collocated_witness`, `Operator.C67_created`, `Operator.C67_inverse_partial`, `Operator.C67_modes_witness`, `Operator.C67_no_active`, `Operator.C67_no_basis_witness`, `Operator.C67_non_tensor`, `Operator.C67_one_node_witness`, `Operator.C67_separable`, `Operator.C67_small_witness`, `Operator.C69_add_diagonal_partial`, `Operator.C69_add_diagonal_succeeds_partial`, `Operator.C69_apply_after_partial`, `Operator.C69_diagonal_partial`, `Operator.C69_empty_witness`, `Operator.C69_oriented_witness`, `Operator.C69_passive_output_witness`, `Operator.C72_again`, `Operator.C72_apply_after`, `Operator.C72_apply_after_succeeds`, `Operator.C72_as_reference`, `Operator.C72_blocked_again`, `Operator.C72_blocked_apply_after`, `Operator.C72_blocked_apply_after_succeeds`, `Operator.C72_blocked_as_reference`, `Operator.C72_blocked_build_partial`, `Operator.C72_blocked_columns_partial`, `Operator.C72_blocked_columns_single`, `Operator.C72_blocked_reuse`, `Operator.C72_blocked_succeeds`, `Operator.C72_blocked_update_partial`, `Operator.C72_blocked_vectors`, `Operator.C72_build_partial`, `Operator.C72_columns_partial`, `Operator.C72_columns_single`, `Operator.C72_reuse`, `Operator.C72_succeeds`, `Operator.C72_update_partial`, `Operator.C72_vectors`, `Operator.C75_action_partial`, `Operator.C75_composite_partial`, `Operator.C75_composite_witness`, `Operator.C75_defined_partial`, `Operator.C75_errors_partial`, `Operator.C75_faithful_partial`, `Operator.C75_flops_witness`, `Operator.C75_stale_witness`, `Operator.C75_twice_witness`, `Operator.C75_writable_witness`, `Operator.C79_action_partial`, `Operator.C79_assembled_partial`, `Operator.C79_more_outputs_witness`, `Operator.C79_rejects_partial`, `Operator.C79_restriction_shape_partial`, `Operator.C79_restriction_witness`, `Operator.C79_stale_inputs_witness`, `Operator.C79_succeeds_partial`, `Operator.C79_weights_cleared_witness`, `QFunction.C36_refused`, `QFunction.C36_room`, `QFunction.C50_found`, `QFunction.C50_gallery`, `QFunction.C50_unknown`, `QFunction.C51_identity_scale`, `QFunction.C51_mass_apply`, `QFunction.C51_mass_build`, `QFunction.C51_poisson2`, `QFunction.C51_poisson3`, `QFunction.C51_poisson_apply`, `QFunction.C51_poisson_build`, `Quad.C68_gauss`, `Quad.C68_gauss_bounds`, `Quad.C68_gauss_one`, `Quad.C68_gauss_partial`, `Quad.C68_gauss_symmetric`, `Quad.C68_gauss_witness`, `Quad.C68_lobatto`, `Quad.C68_lobatto_bounds`, `Quad.C68_lobatto_few`, `Quad.C68_lobatto_partial`, `Quad.C68_lobatto_symmetric`, `RefCount.C10_alive_iff`, `RefCount.C10_count`, `RefCount.C10_defined`, `RefCount.C10_no_leak`, `RefCount.C10_once`, `Restriction.C11_apply_gathers`, `Restriction.C11_curl_oriented`, `Restriction.C11_oriented`, `Restriction.C11_standard`, `Restriction.C11_strided`, `Restriction.C11_strided_backend`, `Restriction.C12_transpose_accumulates`, `Restriction.C12_transpose_is_adjoint`, `Restriction.C12_transpose_is_adjoint_plain`, `Restriction.C13_apply_safe`, `Restriction.C13_backend_strides_safe`, `Restriction.C13_blocked_safe_partial`, `Restriction.C13_create_checks_offsets`, `Restriction.C13_create_then_apply_safe`, `Restriction.C14_blocked_gather`, `Restriction.C14_blocked_scatter`, `Restriction.C14_blocked_strided_gather`, `Restriction.C14_blocked_strided_scatter`, `Restriction.C15_block_gather`, `Restriction.C15_block_scatter`, `Restriction.C16_multiplicity_blocked`, `Restriction.C16_multiplicity_partial`, `Restriction.C16_multiplicity_strided`, `Restriction.C18_blocked_unoriented`, `Restriction.C18_blocked_unsigned`, `Restriction.C18_standard`, `Restriction.C18_strided`, `Restriction.C18_unoriented`, `Restriction.C18_unsigned`, `Restriction.C19_element_gather`, `Restriction.C19_element_offset`, `Restriction.C19_element_scatter`, `Restriction.C19_evector_size`, `Restriction.C19_gather`, `Restriction.C19_min_max_points`, `Restriction.C19_num_points`, `Restriction.C19_scatter`, `Restriction.C80_compatible`, `Restriction.C80_compatible_sound`, `Restriction.C80_elayout_injective_partial`, `Restriction.C80_elayout_partial`, `Restriction.C80_elayout_transpose_partial`, `Restriction.C80_grow`, `Restriction.C80_llayout`, `Restriction.C80_llayout_blocked`, `Restriction.C80_points_layout_partial`, `Restriction.C80_vectors`, `Restriction.C80_vectors_points`, `RstrLife.C74_alive_partial`, `RstrLife.C74_borrowed_partial`, `RstrLife.C74_defined_partial`, `RstrLife.C74_errors_partial`, `RstrLife.C74_no_leak_partial`, `RstrLife.C74_release_partial`, `RstrLife.C74_use_partial`, `Vector.C01_exclusive`, `Vector.C01_read_refused`, `Vector.C01_write_refused`, `Vector.C02_state`, `Vector.C03_axpby_partial`, `Vector.C03_axpby_witness`, `Vector.C03_axpy_partial`, `Vector.C03_axpy_witness`, `Vector.C03_copyStrided_partial`, `Vector.C03_copyStrided_self_witness`, `Vector.C03_copy_partial`, `Vector.C03_copy_self_witness`, `Vector.C03_destroy_witness`, `Vector.C03_getArrayWrite_witness`, `Vector.C03_one_operand_partial`, `Vector.C03_pointwiseMult_partial`, `Vector.C03_pointwiseMult_witness`, `Vector.C04_balanced`, `Vector.C04_no_destroy_with_access`, `Vector.C05_defined`, `Vector.C05_empty_leak_witness`, `Vector.C05_freed_at_destroy`, `Vector.C05_lent_not_freed`, `Vector.C05_no_leak`, `Vector.C05_one_owner`, `Vector.C05_own`, `Vector.C05_own_twice_witness`, `Vector.C06_empty_witness`, `Vector.C06_take_iff`, `Vector.C06_take_result`, `Vector.C07_axpby`, `Vector.C07_axpy`, `Vector.C07_pointwiseMult`, `Vector.C07_reciprocal`, `Vector.C07_scale`, `Vector.C07_setValue`, `Vector.C08_norm`, `Vector.C08_positive`, `Vector.C08_scaling`, `Vector.C09_copyStrided_partial`, `Vector.C09_negative_start_witness`, `Vector.C09_setValueStrided_partial`, `Vector.C09_zero_step_witness`
* `Quot.sound`, `propext` (74 theorems): `Basis.C20_opt_eq_ref`, `Basis.C26_created_partial`, `Basis.C26_nothing_witness`, `Basis.C27_rejects`, `Basis.C53_avx_overrun_witness`, `Basis.C53_opt`, `Basis.C57_points_rejected`, `Basis.C57_space_rejected`, `Basis.C64_scalar`, `Basis.C64_simdiag_scalar`, `Ceed.C33_help_witness`, `Ceed.C33_register`, `Ceed.C33_resource_root`, `Ceed.C34_fallback_delegate_witness`, `Ceed.C34_handler_witness`, `Ceed.C34_parent_witness`, `Ceed.C34_root`, `Ceed.C34_same_root`, `Ceed.C35_destroy_outstanding`, `Ceed.C49_lookup_partial`, `CheckQF.C78_refused_partial`, `Composite.C42_reject`, `Composite.C45_composite_count`, `Composite.C45_nested`, `Context.C30_type_mismatch`, `Context.C31_take_witness`, `Flops.C47_errors`, `Fortran.C59_string_partial`, `Gpu.C61_size_checks`, `Gpu.C62_block_limit_witness`, `Gpu.C62_no_weights`, `Gpu.C62_none_longer_witness`, `Gpu.C62_too_short`, `JitPaths.C82_add`, `JitPaths.C82_add_refused`, `JitPaths.C82_fallback_again`, `JitPaths.C82_fallback_partial`, `JitPaths.C82_get`, `JitPaths.C82_get_restore`, `JitPaths.C82_history`, `Labels.C48_conflict_witness`, `Labels.C48_context_witness`, `Labels.C48_nested_witness`, `Labels.C48_replaced_witness`, `Memcheck.C60_arithmetic_reading_witness`, `Memcheck.C60_arithmetic_state_witness`, `Memcheck.C60_arithmetic_writing_witness`, `Memcheck.C60_stale_witness`, `Operator.C69_not_square`, `Operator.C75_once`, `Operator.C75_same`, `QFunction.C36_accept`, `QFunction.C36_bounds_partial`, `QFunction.C36_immutable`, `QFunction.C36_order`, `QFunction.C36_overflow_witness`, `QFunction.C36_unique`, `QFunction.C50_register`, `Query.C81_active_found_partial`, `Query.C81_active_succeeds_partial`, `Query.C81_ambiguous`, `Query.C81_ambiguous_output`, `Query.C81_field_by_name`, `Query.C81_none_active`, `Query.C81_none_active_output`, `Query.C81_sub_by_name`, `Query.C81_tensor`, `RefCount.C10_cycle_witness`, `RefCount.C10_field_twice_witness`, `Restriction.C13_blocked_zero_block_size_witness`, `Restriction.C15_block_rejected_partial`, `Restriction.C17_specialised_kernels`, `Restriction.C19_no_elements_witness`, `Restriction.C80_num_points`
* `propext` (124 theorems): `Basis.C20_strided_transpose_overwrites_witness`, `Basis.C23_applyAdd_grad_overwrites_witness`, `Basis.C23_applyAdd_interp_overwrites_witness`, `Basis.C23_applyAdd_noTranspose`, `Basis.C28_null_matrix_witness`, `Basis.C28_weight_no_elements_witness`, `Ceed.C33_colon_witness`, `Ceed.C33_empty_witness`, `Ceed.C33_full_witness`, `Ceed.C33_null`, `Ceed.C33_register_keeps`, `Ceed.C34_dangling_witness`, `Ceed.C35_delegate_witness`, `Ceed.C35_null_witness`, `Ceed.C49_default`, `Ceed.C49_second_witness`, `CheckCtx.C77_device_witness`, `CheckCtx.C77_field_witness`, `CheckCtx.C77_leak_witness`, `CheckCtx.C77_null_witness`, `CheckCtx.C77_reset_longer_witness`, `CheckCtx.C77_reset_witness`, `CheckCtx.C77_stale_witness`, `CheckCtx.C77_take_witness`, `CheckCtx.C77_undestroyed_witness`, `CheckQF.C78_alias_witness`, `CheckQF.C78_failed_witness`, `CheckQF.C78_locked_witness`, `CheckQF.C78_longer_witness`, `CheckQF.C78_other_reader_witness`, `CheckQF.C78_points_partial`, `Composite.C38_nested_witness`, `Composite.C42_cycle_witness`, `Composite.C42_incompatible_witness`, `Composite.C42_refused_witness`, `Composite.C42_stale_witness`, `Composite.C58_empty_witness`, `Composite.C58_square`, `Composite.C58_unique_witness`, `Context.C29_kept`, `Context.C29_null_description_witness`, `Context.C31_device_witness`, `Context.C32_destroy_witness`, `Context.C32_set_witness`, `Context.C32_take_witness`, `DevCtx.C76_dangling_witness`, `DevCtx.C76_overwritten_witness`, `DevCtx.C76_resize_lent_witness`, `DevCtx.C76_resize_witness`, `DevCtx.C76_undestroyed_witness`, `Flops.C47_atpoints_witness`, `Flops.C47_curl_witness`, `Flops.C47_empty`, `Flops.C47_gradient_witness`, `Flops.C47_point_witness`, `Flops.C47_points_witness`, `Flops.C47_transpose_witness`, `Fortran.C59_apply_add_witness`, `Fortran.C59_context_partial`, `Fortran.C59_copy_witness`, `Fortran.C59_stub_partial`, `Gpu.C70_adjacent_witness`, `Gpu.C70_curl_fallback_witness`, `Gpu.C70_curl_input_witness`, `Gpu.C70_curl_output_witness`, `Gpu.C71_adjacent_witness`, `Gpu.C71_curl_witness`, `Gpu.C71_repeated_witness`, `Jit.C65_colon`, `Labels.C48_add`, `Labels.C48_null`, `Operator.C37_element_size_witness`, `Operator.C37_identity_passive_witness`, `Operator.C37_identity_weight_witness`, `Operator.C39_error_history_witness`, `Operator.C40_collocated_witness`, `Operator.C40_null_input_witness`, `Operator.C40_null_output_witness`, `Operator.C40_overwritten_witness`, `Operator.C43_shared_witness`, `Operator.C43_stale_witness`, `Operator.C43_withdraw`, `Operator.C44_adjacent_witness`, `Operator.C44_curl_witness`, `Operator.C44_empty_witness`, `Operator.C44_none_witness`, `Operator.C44_repeated_witness`, `Operator.C44_restrictions_witness`, `Operator.C44_stride_witness`, `Operator.C44_strided_witness`, `Operator.C45_adjacent_witness`, `Operator.C45_short_witness`, `Operator.C54_in_place_witness`, `Operator.C54_longer_vector_witness`, `Operator.C55_long_witness`, `Operator.C55_nested_witness`, `Operator.C55_skip_witness`, `Operator.C72_blocked_empty_witness`, `Operator.C72_blocked_shared_witness`, `Operator.C72_blocked_stale_witness`, `Operator.C72_shared_witness`, `Operator.C72_stale_witness`, `Operator.C75_roots_partial`, `QFunction.C50_exact`, `QFunction.C50_prefix_witness`, `Restriction.C13_blocked_check_incomplete_witness`, `Restriction.C13_blocked_oriented_negative_witness`, `Restriction.C13_curl_one_node_witness`, `Restriction.C13_strides_unchecked_witness`, `Restriction.C15_block_negative_witness`, `Restriction.C15_block_off_by_one_witness`, `Restriction.C16_curl_witness`, `Restriction.C19_unchecked_point_witness`, `Restriction.C80_blocked_layout_witness`, `Restriction.C80_compatible_rejects`, `Restriction.C80_compatible_witness`, `Restriction.C80_no_llayout`, `Restriction.C80_points_layout_witness`, `Restriction.C80_points_only`, `RstrLife.C74_copy_of_copy_witness`, `RstrLife.C74_copy_while_reading_witness`, `RstrLife.C74_refused_witness`, `RstrLife.C74_replace_witness`, `RstrLife.C74_restore_witness`

## Functions modelled

Per source file, from the lines cited in the comments of the model. *Part* means that less than two thirds of the
lines are cited: the rest is setup of backend pointers, printing, or locks treated elsewhere. Functions listed under *no* are not modelled.

* `backends/avx/ceed-avx-blocked.c`
  * no: all functions
* `backends/avx/ceed-avx-serial.c`
  * no: all functions
* `backends/avx/ceed-avx-tensor.c`
  * modelled: CeedTensorContract_Avx_Blocked, CeedTensorContract_Avx_Remainder, CeedTensorContract_Avx_Single, CeedTensorContract_Avx_Blocked_4_8, CeedTensorContract_Avx_Remainder_8_8, CeedTensorContract_Avx_Single_4_8, CeedTensorContractApply_Avx
  * no: CeedTensorContractCreate_Avx (293-296)
* `backends/blocked/ceed-blocked-operator.c`
  * modelled: CeedOperatorSetupFields_Blocked, CeedOperatorSetup_Blocked, CeedOperatorSetupInputs_Blocked, CeedOperatorInputBasis_Blocked, CeedOperatorOutputBasis_Blocked, CeedOperatorRestoreInputs_Blocked, CeedOperatorApplyAdd_Blocked, CeedOperatorLinearAssembleQFunctionCore_Blocked, CeedOperatorLinearAssembleQFunction_Blocked, CeedOperatorLinearAssembleQFunctionUpdate_Blocked
  * no: CeedOperatorDestroy_Blocked (738-775), CeedOperatorCreate_Blocked (780-793)
* `backends/blocked/ceed-blocked.c`
  * no: all functions
* `backends/opt/ceed-opt-blocked.c`
  * no: all functions
* `backends/opt/ceed-opt-operator.c`
  * modelled: CeedOperatorSetupFields_Opt, CeedOperatorSetup_Opt, CeedOperatorSetupInputs_Opt, CeedOperatorInputBasis_Opt, CeedOperatorOutputBasis_Opt, CeedOperatorRestoreInputs_Opt, CeedOperatorApplyAdd_Opt, CeedOperatorLinearAssembleQFunctionCore_Opt, CeedOperatorLinearAssembleQFunction_Opt, CeedOperatorLinearAssembleQFunctionUpdate_Opt
  * no: CeedOperatorDestroy_Opt (745-780), CeedOperatorCreate_Opt (785-805)
* `backends/opt/ceed-opt-serial.c`
  * modelled: CeedInit_Opt_Serial
  * part: CeedDestroy_Opt
  * no: CeedRegister_Opt_Serial (56-56)
* `backends/opt/ceed-opt-tensor.c`
  * modelled: CeedTensorContractApply_Core_Opt, CeedTensorContractApply_Opt
  * no: CeedTensorContractCreate_Opt (54-57)
* `backends/ref/ceed-ref-basis.c`
  * modelled: CeedBasisApplyCore_Ref, CeedBasisCreateTensorH1_Ref
  * no: CeedBasisApply_Ref (253-256), CeedBasisApplyAdd_Ref (258-261), CeedBasisDestroyTensor_Ref (266-273), CeedBasisCreateH1_Ref (321-337), CeedBasisCreateHdiv_Ref (342-358), CeedBasisCreateHcurl_Ref (363-379)
* `backends/ref/ceed-ref-operator.c`
  * modelled: CeedOperatorSetupFields_Ref, CeedOperatorSetup_Ref, CeedOperatorSetupInputs_Ref, CeedOperatorInputBasis_Ref, CeedOperatorOutputBasis_Ref, CeedOperatorRestoreInputs_Ref, CeedOperatorApplyAdd_Ref, CeedOperatorLinearAssembleQFunctionCore_Ref, CeedOperatorLinearAssembleQFunction_Ref, CeedOperatorLinearAssembleQFunctionUpdate_Ref, CeedOperatorSetupFieldsAtPoints_Ref, CeedOperatorSetupAtPoints_Ref, CeedOperatorInputBasisAtPoints_Ref, CeedOperatorOutputBasisAtPoints_Ref, CeedOperatorApplyAddAtPoints_Ref, CeedOperatorLinearAssembleQFunctionAtPointsCore_Ref, CeedOperatorLinearAssembleQFunctionAtPoints_Ref, CeedOperatorLinearAssembleQFunctionAtPointsUpdate_Ref, CeedOperatorLinearAssembleAddDiagonalAtPoints_Ref
  * no: CeedOperatorDestroy_Ref (1558-1589), CeedOperatorCreate_Ref (1594-1607), CeedOperatorCreateAtPoints_Ref (1612-1627)
* `backends/ref/ceed-ref-qfunction.c`
  * no: all functions
* `backends/ref/ceed-ref-qfunctioncontext.c`
  * modelled: CeedQFunctionContextHasBorrowedDataOfType_Ref, CeedQFunctionContextSetData_Ref, CeedQFunctionContextTakeData_Ref, CeedQFunctionContextGetData_Ref, CeedQFunctionContextDestroy_Ref
  * no: CeedQFunctionContextHasValidData_Ref (18-24), CeedQFunctionContextRestoreData_Ref (103-103), CeedQFunctionContextCreate_Ref (120-138)
* `backends/ref/ceed-ref-restriction.c`
  * modelled: CeedElemRestrictionApplyStridedNoTranspose_Ref_Core, CeedElemRestrictionApplyOffsetNoTranspose_Ref_Core, CeedElemRestrictionApplyOrientedNoTranspose_Ref_Core, CeedElemRestrictionApplyCurlOrientedNoTranspose_Ref_Core, CeedElemRestrictionApplyCurlOrientedUnsignedNoTranspose_Ref_Core, CeedElemRestrictionApplyStridedTranspose_Ref_Core, CeedElemRestrictionApplyOffsetTranspose_Ref_Core, CeedElemRestrictionApplyOrientedTranspose_Ref_Core, CeedElemRestrictionApplyCurlOrientedTranspose_Ref_Core, CeedElemRestrictionApplyCurlOrientedUnsignedTranspose_Ref_Core, CeedElemRestrictionApplyAtPointsInElement_Ref_Core, CeedElemRestrictionApply_Ref_Core, CeedElemRestrictionApply_Ref_110, CeedElemRestrictionApply_Ref_111, CeedElemRestrictionApply_Ref_180, CeedElemRestrictionApply_Ref_181, CeedElemRestrictionApply_Ref_310, CeedElemRestrictionApply_Ref_311, CeedElemRestrictionApply_Ref_380, CeedElemRestrictionApply_Ref_381, CeedElemRestrictionApply_Ref_510, CeedElemRestrictionApply_Ref_511, CeedElemRestrictionApply_Ref_580, CeedElemRestrictionApply_Ref_581, CeedElemRestrictionApply_Ref, CeedElemRestrictionApplyUnsigned_Ref, CeedElemRestrictionApplyUnoriented_Ref, CeedElemRestrictionApplyAtPointsInElement_Ref, CeedElemRestrictionApplyBlock_Ref, CeedElemRestrictionGetOffsets_Ref, CeedElemRestrictionGetOrientations_Ref, CeedElemRestrictionGetCurlOrientations_Ref, CeedElemRestrictionDestroy_Ref, CeedElemRestrictionCreate_Ref
* `backends/ref/ceed-ref-tensor.c`
  * modelled: CeedTensorContractApply_Ref
  * no: CeedTensorContractDestroy_Ref (43-43), CeedTensorContractCreate_Ref (48-56)
* `backends/ref/ceed-ref-vector.c`
  * modelled: CeedVectorHasValidArray_Ref, CeedVectorSetArray_Ref, CeedVectorTakeArray_Ref, CeedVectorGetArrayCore_Ref, CeedVectorGetArrayWrite_Ref, CeedVectorDestroy_Ref
  * no: CeedVectorHasBorrowedArrayOfType_Ref (30-37), CeedVectorGetArrayRead_Ref (89-91), CeedVectorGetArray_Ref (96-98), CeedVectorRestoreArray_Ref (115-115), CeedVectorRestoreArrayRead_Ref (120-120), CeedVectorCreate_Ref (137-156)
* `backends/ref/ceed-ref.c`
  * no: all functions
* `interface/ceed-basis.c`
  * modelled: CeedChebyshevPolynomialsAtPoint, CeedChebyshevDerivativeAtPoint, CeedHouseholderReflect, CeedGivensRotation, CeedBasisCreateProjectionMatrices, CeedBasisApplyCheckDims, CeedBasisApplyAtPointsCheckDims, CeedBasisApplyAtPoints_Core, CeedBasisCreateH1Fallback, CeedBasisGetCollocatedGrad, CeedBasisGetChebyshevInterp1D, CeedBasisIsTensor, CeedBasisReference, CeedBasisGetNumQuadratureComponents, CeedBasisGetFlopsEstimate, CeedBasisGetFESpace, CeedMatrixMatrixMultiply, CeedQRFactorization, CeedHouseholderApplyQ, CeedMatrixPseudoinverse, CeedSymmetricSchurDecomposition, CeedSimultaneousDiagonalization, CeedBasisCreateTensorH1, CeedBasisCreateTensorH1Lagrange, CeedBasisCreateH1, CeedBasisCreateHdiv, CeedBasisCreateHcurl, CeedBasisCreateProjection, CeedBasisReferenceCopy, CeedBasisApply, CeedBasisApplyAdd, CeedBasisApplyAtPoints, CeedBasisGetNumNodes1D, CeedBasisGetInterp, CeedBasisGetGrad, CeedBasisDestroy, CeedGaussQuadrature, CeedLobattoQuadrature
  * part: CeedBasisApplyAddAtPoints
  * no: CeedScalarView (162-177), CeedBasisGetData (793-796), CeedBasisSetData (808-811), CeedBasisGetTopologyDimension (1013-1016), CeedBasisGetTensorContract (1028-1031), CeedBasisSetTensorContract (1043-1047), CeedBasisView (1855-1921), CeedBasisGetCeed (2053-2057), CeedBasisReturnCeed (2068-2068), CeedBasisGetDimension (2080-2083), CeedBasisGetTopology (2095-2098), CeedBasisGetNumComponents (2110-2113), CeedBasisGetNumNodes (2125-2128), CeedBasisGetNumQuadraturePoints (2156-2159), CeedBasisGetNumQuadraturePoints1D (2171-2175), CeedBasisGetQRef (2187-2190), CeedBasisGetQWeights (2202-2205), CeedBasisGetInterp1D (2251-2258), CeedBasisGetGrad1D (2307-2314), CeedBasisGetDiv (2326-2329), CeedBasisGetCurl (2341-2344)
* `interface/ceed-config.c`
  * no: all functions
* `interface/ceed-cuda.c`
  * no: all functions
* `interface/ceed-elemrestriction.c`
  * modelled: CeedPermutePadOffsets, CeedPermutePadOrients, CeedPermutePadCurlOrients, CeedElemRestrictionAtPointsAreCompatible, CeedElemRestrictionGetStrides, CeedElemRestrictionHasBackendStrides, CeedElemRestrictionGetOffsets, CeedElemRestrictionRestoreOffsets, CeedElemRestrictionGetOrientations, CeedElemRestrictionRestoreOrientations, CeedElemRestrictionGetCurlOrientations, CeedElemRestrictionRestoreCurlOrientations, CeedElemRestrictionGetLLayout, CeedElemRestrictionSetLLayout, CeedElemRestrictionGetELayout, CeedElemRestrictionSetELayout, CeedElemRestrictionGetAtPointsElementOffset, CeedElemRestrictionSetAtPointsEVectorSize, CeedElemRestrictionReference, CeedElemRestrictionGetFlopsEstimate, CeedElemRestrictionCreate, CeedElemRestrictionCreateOriented, CeedElemRestrictionCreateCurlOriented, CeedElemRestrictionCreateStrided, CeedElemRestrictionCreateAtPoints, CeedElemRestrictionCreateBlocked, CeedElemRestrictionCreateBlockedOriented, CeedElemRestrictionCreateBlockedCurlOriented, CeedElemRestrictionCreateBlockedStrided, CeedElemRestrictionCreateUnsignedCopy, CeedElemRestrictionCreateUnorientedCopy, CeedElemRestrictionReferenceCopy, CeedElemRestrictionCreateVector, CeedElemRestrictionApply, CeedElemRestrictionApplyAtPointsInElement, CeedElemRestrictionApplyBlock, CeedElemRestrictionGetNumPoints, CeedElemRestrictionGetNumPointsInElement, CeedElemRestrictionGetMinMaxPointsInElement, CeedElemRestrictionGetMultiplicity, CeedElemRestrictionDestroy
  * no: CeedElemRestrictionGetType (119-122), CeedElemRestrictionIsStrided (134-137), CeedElemRestrictionIsAtPoints (149-152), CeedElemRestrictionGetData (504-507), CeedElemRestrictionSetData (519-522), CeedElemRestrictionGetCeed (1440-1444), CeedElemRestrictionReturnCeed (1455-1455), CeedElemRestrictionGetCompStride (1467-1470), CeedElemRestrictionGetNumElements (1482-1485), CeedElemRestrictionGetElementSize (1497-1500), CeedElemRestrictionGetMaxPointsInElement (1602-1604), CeedElemRestrictionGetMinPointsInElement (1618-1620), CeedElemRestrictionGetLVectorSize (1632-1635), CeedElemRestrictionGetEVectorSize (1647-1650), CeedElemRestrictionGetNumComponents (1662-1665), CeedElemRestrictionGetNumBlocks (1677-1680), CeedElemRestrictionGetBlockSize (1692-1695), CeedElemRestrictionView (1734-1761)
* `interface/ceed-fortran.c`
  * modelled: fCeedVectorCreate, fCeedVectorDestroy, CeedQFunctionFortranStub, fCeedQFunctionCreateInterior, fCeedQFunctionSetContext, fCeedQFunctionApply, fCeedOperatorSetField, fCeedOperatorMultigridLevelCreate, fCeedOperatorMultigridLevelCreateTensorH1, fCeedOperatorMultigridLevelCreateH1
  * part: fCeedBasisApply, fCeedQFunctionCreateInteriorByName, fCeedOperatorApply, fCeedOperatorApplyAdd
  * no: fCeedInit (64-78), fCeedIsDeterministic (81-83), fCeedGetPreferredMemType (86-86), fCeedView (89-89), fCeedDestroy (92-105), fCeedVectorSetArray (132-134), fCeedVectorTakeArray (137-142), fCeedVectorSyncArray (145-145), fCeedVectorSetValue (148-148), fCeedVectorGetArray (151-156), fCeedVectorGetArrayRead (159-164), fCeedVectorGetArrayWrite (167-172), fCeedVectorRestoreArray (175-179), fCeedVectorRestoreArrayRead (182-185), fCeedVectorNorm (188-190), fCeedVectorReciprocal (193-193), fCeedVectorView (196-196), fCeedElemRestrictionCreate (223-240), fCeedElemRestrictionCreateOriented (243-261), fCeedElemRestrictionCreateCurlOriented (264-283), fCeedElemRestrictionCreateStrided (286-301), fCeedElemRestrictionCreateBlocked (304-321), fCeedElemRestrictionCreateBlockedOriented (324-343), fCeedElemRestrictionCreateBlockedCurlOriented (347-366), fCeedElemRestrictionCreateBlockedStrided (369-383), fCeedElemRestrictionApply (391-413), fCeedElemRestrictionApplyBlock (416-438), fCeedElemRestrictionGetMultiplicity (441-443), fCeedElemRestrictionGetELayout (446-450), fCeedElemRestrictionView (453-453), fCeedRequestWait (456-468), fCeedElemRestrictionDestroy (471-484), fCeedBasisCreateTensorH1Lagrange (495-507), fCeedBasisCreateTensorH1 (510-525), fCeedBasisCreateH1 (528-542), fCeedBasisCreateHdiv (545-559), fCeedBasisCreateHcurl (562-576), fCeedBasisView (579-579), fCeedBasisGetCollocatedGrad (582-584), fCeedBasisGetNumNodes (593-593), fCeedBasisGetNumQuadraturePoints (596-596), fCeedBasisGetInterp1D (599-604), fCeedBasisGetGrad1D (607-612), fCeedBasisGetQRef (615-620), fCeedBasisDestroy (623-636), fCeedGaussQuadrature (639-641), fCeedLobattoQuadrature (644-646), fCeedQFunctionContextCreate (657-669), fCeedQFunctionContextSetData (672-675), fCeedQFunctionContextGetData (678-683), fCeedQFunctionContextRestoreData (686-689), fCeedQFunctionContextView (692-692), fCeedQFunctionContextDestroy (695-708), fCeedQFunctionCreateIdentity (802-815), fCeedQFunctionAddInput (818-824), fCeedQFunctionAddOutput (827-833), fCeedQFunctionView (853-857), fCeedQFunctionDestroy (912-925), fCeedOperatorCreate (936-952), fCeedCompositeOperatorCreate (955-967), fCeedCompositeOperatorAddSub (1007-1012), fCeedOperatorSetName (1015-1020), fCeedOperatorLinearAssembleQFunction (1023-1067), fCeedOperatorLinearAssembleDiagonal (1070-1093), fCeedOperatorView (1168-1172), fCeedOperatorCreateFDMElementInverse (1175-1210), fCeedOperatorApplyJacobian (1271-1276), fCeedOperatorDestroy (1279-1291)
* `interface/ceed-hip.c`
  * no: all functions
* `interface/ceed-jit-tools.c`
  * modelled: CeedCheckFilePath, CeedNormalizePath, CeedLoadSourceToInitializedBuffer, CeedLoadSourceAndInitializeBuffer, CeedLoadSourceToBuffer, CeedPathConcatenate, CeedGetJitAbsolutePath
  * no: CeedGetJitRelativePath (389-393)
* `interface/ceed-operator.c`
  * modelled: CeedOperatorCheckField, CeedOperatorGetActiveBases, CeedOperatorGetActiveElemRestriction, CeedOperatorGetActiveElemRestrictions, CeedOperatorContextSetGeneric, CeedOperatorContextGetGenericRead, CeedOperatorContextRestoreGenericRead, CeedOperatorGetNumArgs, CeedOperatorHasTensorBases, CeedOperatorGetQFunction, CeedOperatorReference, CeedOperatorCreate, CeedCompositeOperatorCreate, CeedOperatorReferenceCopy, CeedOperatorSetField, CeedOperatorGetFields, CeedOperatorGetFieldByName, CeedOperatorFieldGetElemRestriction, CeedOperatorFieldGetBasis, CeedCompositeOperatorAddSub, CeedCompositeOperatorGetSubByName, CeedOperatorCheckReady, CeedOperatorGetActiveVectorLengths, CeedOperatorSetQFunctionAssemblyReuse, CeedOperatorSetQFunctionAssemblyDataUpdateNeeded, CeedOperatorGetFlopsEstimate, CeedOperatorGetContext, CeedOperatorGetContextFieldLabel, CeedOperatorSetContextDouble, CeedOperatorGetContextDoubleRead, CeedOperatorRestoreContextDoubleRead, CeedOperatorSetContextInt32, CeedOperatorGetContextInt32Read, CeedOperatorRestoreContextInt32Read, CeedOperatorSetContextBoolean, CeedOperatorGetContextBooleanRead, CeedOperatorRestoreContextBooleanRead, CeedOperatorApply, CeedOperatorApplyAdd, CeedOperatorDestroy
  * part: CeedOperatorFieldView
  * no: CeedOperatorSingleView (138-176), CeedOperatorGetActiveBasis (190-193), CeedOperatorIsImmutable (617-620), CeedOperatorIsSetupDone (632-635), CeedOperatorIsComposite (667-670), CeedOperatorGetData (682-685), CeedOperatorSetData (697-700), CeedOperatorSetSetupDone (725-728), CeedOperatorCreateAtPoints (796-822), CeedOperatorAtPointsSetPoints (1054-1075), CeedOperatorIsAtPoints (1087-1090), CeedOperatorAtPointsGetPoints (1105-1121), CeedOperatorFieldGetName (1172-1175), CeedOperatorFieldGetVector (1225-1229), CeedOperatorFieldGetData (1248-1254), CeedCompositeOperatorGetNumSub (1306-1313), CeedCompositeOperatorGetSubList (1325-1332), CeedOperatorSetName (1543-1554), CeedOperatorView_Core (1567-1591), CeedOperatorView (1603-1606), CeedOperatorViewTerse (1618-1621), CeedOperatorGetCeed (1633-1637), CeedOperatorReturnCeed (1648-1648), CeedOperatorGetNumElements (1660-1667), CeedOperatorGetNumQuadraturePoints (1679-1686), CeedOperatorAssemblyDataStrip (2245-2263)
* `interface/ceed-preconditioning.c`
  * modelled: CeedQFunctionCreateFallback, CeedOperatorCreateFallback, CeedSingleOperatorLinearAssembleAddDiagonal_Mesh, CeedCompositeOperatorLinearAssembleAddDiagonal, CeedSingleOperatorAssembleSymbolic, CeedSingleOperatorAssemble, CeedSingleOperatorAssemblyCountEntries, CeedSingleOperatorMultigridLevel, CeedBuildMassLaplace, CeedOperatorGetBasisPointer, CeedOperatorCreateActivePointBlockRestriction, CeedQFunctionAssemblyDataDestroy, CeedOperatorGetOperatorAssemblyData, CeedOperatorAssemblyDataCreate, CeedOperatorAssemblyDataGetBases, CeedOperatorLinearAssembleQFunction, CeedOperatorLinearAssembleQFunctionBuildOrUpdate, CeedOperatorLinearAssembleDiagonal, CeedOperatorLinearAssembleAddDiagonal, CeedOperatorLinearAssemblePointBlockDiagonalSymbolic, CeedOperatorLinearAssemblePointBlockDiagonal, CeedOperatorLinearAssembleAddPointBlockDiagonal, CeedOperatorLinearAssembleSymbolic, CeedOperatorLinearAssemble, CeedCompositeOperatorGetMultiplicity, CeedOperatorCreateFDMElementInverse
  * part: CeedOperatorGetFallback
  * no: CeedSingleOperatorLinearAssembleAddDiagonal (403-411), CeedOperatorGetQFunctionAssemblyData (1192-1201), CeedQFunctionAssemblyDataCreate (1213-1219), CeedQFunctionAssemblyDataReference (1230-1233), CeedQFunctionAssemblyDataSetReuse (1245-1249), CeedQFunctionAssemblyDataSetUpdateNeeded (1261-1264), CeedQFunctionAssemblyDataIsUpdateNeeded (1276-1279), CeedQFunctionAssemblyDataReferenceCopy (1296-1301), CeedQFunctionAssemblyDataIsSetup (1313-1316), CeedQFunctionAssemblyDataSetObjects (1329-1335), CeedQFunctionAssemblyDataGetObjects (1348-1354), CeedOperatorAssemblyDataGetEvalModes (1586-1600), CeedOperatorAssemblyDataGetElemRestrictions (1744-1752), CeedOperatorAssemblyDataDestroy (1763-1798), CeedOperatorGetFallbackParent (1847-1850), CeedOperatorGetFallbackParentCeed (1862-1867), CeedOperatorMultigridLevelCreate (2568-2586), CeedOperatorMultigridLevelCreateTensorH1 (2606-2652), CeedOperatorMultigridLevelCreateH1 (2672-2716)
* `interface/ceed-qfunction-register.c`
  * no: all functions
* `interface/ceed-qfunction.c`
  * modelled: CeedQFunctionRegister, CeedQFunctionGetContextData, CeedQFunctionRestoreContextData, CeedQFunctionSetImmutable, CeedQFunctionReference, CeedQFunctionGetFlopsEstimate, CeedQFunctionCreateInteriorByName, CeedQFunctionReferenceCopy, CeedQFunctionAddInput, CeedQFunctionAddOutput, CeedQFunctionGetFields, CeedQFunctionSetContext, CeedQFunctionApply, CeedQFunctionDestroy
  * part: CeedQFunctionIsImmutable, CeedQFunctionCreateInterior
  * no: CeedQFunctionFieldSet (106-112), CeedQFunctionFieldView (126-142), CeedQFunctionSetFortranStatus (154-157), CeedQFunctionGetVectorLength (177-180), CeedQFunctionGetNumArgs (193-197), CeedQFunctionGetKernelName (209-227), CeedQFunctionGetSourcePath (239-268), CeedQFunctionLoadSourceToBuffer (288-303), CeedQFunctionGetUserFunction (315-318), CeedQFunctionGetContext (332-336), CeedQFunctionGetInnerContext (407-422), CeedQFunctionGetInnerContextData (436-452), CeedQFunctionRestoreInnerContextData (464-479), CeedQFunctionIsIdentity (491-494), CeedQFunctionIsContextWritable (506-509), CeedQFunctionGetData (521-524), CeedQFunctionSetData (536-539), CeedQFunctionCreateIdentity (723-738), CeedQFunctionFieldGetName (868-871), CeedQFunctionFieldGetSize (883-886), CeedQFunctionFieldGetEvalMode (898-901), CeedQFunctionFieldGetData (917-922), CeedQFunctionSetContextWritable (960-963), CeedQFunctionSetUserFlopsEstimate (973-977), CeedQFunctionView (989-1005), CeedQFunctionGetCeed (1017-1021), CeedQFunctionReturnCeed (1032-1032)
* `interface/ceed-qfunctioncontext.c`
  * modelled: CeedQFunctionContextGetFieldIndex, CeedQFunctionContextRegisterGeneric, CeedQFunctionContextDestroyData, CeedQFunctionContextGetState, CeedQFunctionContextGetFieldLabel, CeedQFunctionContextSetGeneric, CeedQFunctionContextGetGenericRead, CeedQFunctionContextRestoreGenericRead, CeedQFunctionContextReference, CeedQFunctionContextCreate, CeedQFunctionContextReferenceCopy, CeedQFunctionContextSetData, CeedQFunctionContextTakeData, CeedQFunctionContextGetData, CeedQFunctionContextGetDataRead, CeedQFunctionContextRestoreData, CeedQFunctionContextRestoreDataRead, CeedQFunctionContextGetAllFieldLabels, CeedQFunctionContextGetContextSize, CeedQFunctionContextSetDataDestroy, CeedQFunctionContextDestroy
  * no: CeedQFunctionContextGetCeed (148-152), CeedQFunctionContextReturnCeed (163-163), CeedQFunctionContextHasValidData (175-180), CeedQFunctionContextHasBorrowedDataOfType (193-198), CeedQFunctionContextGetBackendData (225-228), CeedQFunctionContextSetBackendData (240-243), CeedQFunctionContextSetDouble (373-377), CeedQFunctionContextGetDoubleRead (391-395), CeedQFunctionContextRestoreDoubleRead (408-412), CeedQFunctionContextSetInt32 (425-429), CeedQFunctionContextGetInt32Read (443-447), CeedQFunctionContextRestoreInt32Read (460-464), CeedQFunctionContextSetBoolean (477-481), CeedQFunctionContextGetBooleanRead (495-499), CeedQFunctionContextRestoreBooleanRead (512-516), CeedQFunctionContextGetDataDestroy (529-533), CeedQFunctionContextRegisterDouble (787-790), CeedQFunctionContextRegisterInt32 (805-808), CeedQFunctionContextRegisterBoolean (823-826), CeedContextFieldLabelGetDescription (859-867), CeedQFunctionContextView (894-901)
* `interface/ceed-register.c`
  * modelled: CeedRegisterAll
* `interface/ceed-tensor.c`
  * modelled: CeedTensorContractStridedApply, CeedTensorContractReference, CeedTensorContractReferenceCopy, CeedTensorContractDestroy
  * no: CeedTensorContractCreate (32-47), CeedTensorContractApply (72-76), CeedTensorContractGetCeed (126-130), CeedTensorContractReturnCeed (141-141), CeedTensorContractGetData (153-156), CeedTensorContractSetData (168-171)
* `interface/ceed-vector.c`
  * modelled: CeedVectorHasValidArray, CeedVectorHasBorrowedArrayOfType, CeedVectorGetState, CeedVectorSetData, CeedVectorReference, CeedVectorCreate, CeedVectorReferenceCopy, CeedVectorCopy, CeedVectorCopyStrided, CeedVectorSetArray, CeedVectorSetValue, CeedVectorSetValueStrided, CeedVectorSyncArray, CeedVectorTakeArray, CeedVectorGetArray, CeedVectorGetArrayRead, CeedVectorGetArrayWrite, CeedVectorRestoreArray, CeedVectorRestoreArrayRead, CeedVectorNorm, CeedVectorScale, CeedVectorAXPY, CeedVectorAXPBY, CeedVectorPointwiseMult, CeedVectorReciprocal, CeedVectorViewRange, CeedVectorView, CeedVectorGetCeed, CeedVectorDestroy
  * part: CeedVectorGetData
  * no: CeedVectorReturnCeed (1080-1080), CeedVectorGetLength (1092-1095)
* `interface/ceed.c`
  * modelled: CeedRequestWait, CeedRegisterImpl, CeedWorkVectorsCreate, CeedWorkVectorsDestroy, CeedMallocArray, CeedCallocArray, CeedStringAllocCopy, CeedFree, CeedSetHostGenericArray, CeedRegister, CeedGetResourceRoot, CeedGetParent, CeedGetDelegate, CeedGetObjectDelegate, CeedSetObjectDelegate, CeedGetOperatorFallbackCeed, CeedSetOperatorFallbackResource, CeedReference, CeedGetWorkVector, CeedRestoreWorkVector, CeedGetJitSourceRoots, CeedRestoreJitSourceRoots, CeedGetJitDefines, CeedRestoreJitDefines, CeedInit, CeedReferenceCopy, CeedAddJitSourceRoot, CeedAddJitDefine, CeedDestroy, CeedErrorImpl, CeedErrorReturn, CeedErrorStore, CeedErrorAbort
  * part: CeedSetDelegate, CeedErrorExit
  * no: CeedDebugFlag (197-197), CeedDebugFlagEnv (209-209), CeedDebugImpl256 (221-231), CeedReallocArray (292-296), CeedSetHostBoolArray (390-394), CeedSetHostCeedInt8Array (409-413), CeedSetHostCeedIntArray (428-432), CeedSetHostCeedScalarArray (447-451), CeedIsDebug (482-485), CeedGetOperatorFallbackResource (636-639), CeedSetDeterministic (730-733), CeedSetBackendFunctionImpl (752-774), CeedGetData (786-789), CeedSetData (801-804), CeedRegistryGetList (1005-1029), CeedSetStream (1257-1270), CeedGetResource (1304-1307), CeedGetPreferredMemType (1319-1334), CeedIsDeterministic (1346-1349), CeedView (1423-1434), CeedErrorFormat (1487-1493), CeedSetErrorHandler (1612-1617), CeedGetErrorMessage (1631-1636), CeedResetErrorMessage (1650-1656), CeedGetVersion (1677-1683), CeedGetScalarType (1694-1697)
