{"id": "C01", "title": "Vector write access is exclusive", "statement": "Whatever calls a program makes on a vector, there is never more than one outstanding write access to its array, and never a write access outstanding together with a read access; a request that would break this returns an access error and hands out nothing.", "quantifier": "every finite sequence of vector calls (set/take/get/get-read/get-write/restore/restore-read, successful or failing) from creation", "why_tests_cant": "histories are unbounded and interleave successes and failures; tests exercise a few short ones", "anchors": ["interface/ceed-vector.c:CeedVectorGetArray", "interface/ceed-vector.c:CeedVectorGetArrayRead", "interface/ceed-vector.c:CeedVectorGetArrayWrite", "interface/ceed-vector.c:CeedVectorRestoreArray", "interface/ceed-vector.c:CeedVectorRestoreArrayRead", "interface/ceed-vector.c:CeedVectorSetArray"]}
{"id": "C02", "title": "Vector state value detects every change", "statement": "CeedVectorGetState never decreases, and if it returns the same value at two moments of a history at which the vector is readable, the values readable through the vector are the same at both moments.", "quantifier": "every history of vector calls and all writes made through granted write accesses, all pairs of moments", "why_tests_cant": "requires comparing every pair of points of every history", "anchors": ["interface/ceed-vector.c:CeedVectorGetState", "interface/ceed-vector.c:CeedVectorSetArray", "interface/ceed-vector.c:CeedVectorRestoreArray", "interface/ceed-vector.c:CeedVectorTakeArray"]}
{"id": "C03", "title": "Failed vector calls leave no lock behind", "statement": "A vector call that returns an error leaves every operand with the same outstanding accesses, state and contents it had before the call.", "quantifier": "every vector operation, every operand combination (including the same vector passed twice) and every reachable lock state", "why_tests_cant": "tests check that misuse is reported, not that all operands are still usable for every lock combination", "anchors": ["interface/ceed-vector.c:CeedVectorCopy", "interface/ceed-vector.c:CeedVectorAXPY", "interface/ceed-vector.c:CeedVectorAXPBY", "interface/ceed-vector.c:CeedVectorPointwiseMult", "interface/ceed-vector.c:CeedVectorDestroy"]}
{"id": "C04", "title": "Balanced access leaves a vector unlocked", "statement": "After any successful history in which every granted access has been restored, a vector accepts SetArray, new accesses of either kind and Destroy; conversely Destroy of the last reference never succeeds while an access is outstanding.", "quantifier": "every history of vector calls", "why_tests_cant": "unbounded histories", "anchors": ["interface/ceed-vector.c:CeedVectorRestoreArray", "interface/ceed-vector.c:CeedVectorRestoreArrayRead", "interface/ceed-vector.c:CeedVectorDestroy"]}
{"id": "C05", "title": "Vector array ownership", "statement": "For every history, an array allocated by the library or handed over with CEED_OWN_POINTER is freed exactly once, no later than destruction of the vector; an array lent with CEED_USE_POINTER is never freed; no call reads or writes a freed array.", "quantifier": "every history of SetArray (all copy modes) / TakeArray / GetArray* / Destroy on a reference vector", "why_tests_cant": "needs reasoning over all interleavings of ownership modes; leaks and double frees show only on particular orders", "anchors": ["backends/ref/ceed-ref-vector.c:CeedVectorSetArray_Ref", "backends/ref/ceed-ref-vector.c:CeedVectorTakeArray_Ref", "backends/ref/ceed-ref-vector.c:CeedVectorDestroy_Ref", "interface/ceed.c:CeedSetHostCeedScalarArray", "interface/ceed.c:CeedSetHostGenericArray"]}
{"id": "C06", "title": "TakeArray returns the lent array", "statement": "CeedVectorTakeArray succeeds exactly when an array was lent with CEED_USE_POINTER and has not been taken or replaced since; it returns that very array, holding the current values of the vector, and afterwards the vector holds no valid data.", "quantifier": "every history of vector calls", "why_tests_cant": "the last lending call can be arbitrarily far back in the history", "anchors": ["interface/ceed-vector.c:CeedVectorTakeArray", "backends/ref/ceed-ref-vector.c:CeedVectorTakeArray_Ref", "backends/ref/ceed-ref-vector.c:CeedVectorHasBorrowedArrayOfType_Ref"]}
{"id": "C07", "title": "Vector arithmetic is elementwise exact", "statement": "SetValue, Scale, AXPY, AXPBY, PointwiseMult and Reciprocal give at every index the value of the defining formula on the old contents (also when operands are the same vector where the call accepts that), do not touch entries beyond the length and leave the read operands unchanged.", "quantifier": "all lengths, all contents, all coefficients, all aliasing patterns accepted by the call", "why_tests_cant": "all lengths and contents", "anchors": ["interface/ceed-vector.c:CeedVectorSetValue", "interface/ceed-vector.c:CeedVectorScale", "interface/ceed-vector.c:CeedVectorAXPY", "interface/ceed-vector.c:CeedVectorAXPBY", "interface/ceed-vector.c:CeedVectorPointwiseMult", "interface/ceed-vector.c:CeedVectorReciprocal"]}
{"id": "C08", "title": "Vector norms are norms", "statement": "CeedVectorNorm returns sum |x_i|, sqrt(sum x_i^2) or max |x_i|: it is non-negative, zero exactly on the zero vector, and scaling the vector by a multiplies it by |a|.", "quantifier": "all lengths, contents and norm types", "why_tests_cant": "all contents", "anchors": ["interface/ceed-vector.c:CeedVectorNorm"]}
{"id": "C09", "title": "Strided set and copy stay inside their window", "statement": "SetValueStrided and CopyStrided change exactly the entries start, start+step, ... below the stop bound, leave all others unchanged and never touch memory outside either array, for every argument accepted by the call.", "quantifier": "all lengths, start, stop, step (any integers the call accepts)", "why_tests_cant": "the argument space is unbounded; failures are at corner values", "anchors": ["interface/ceed-vector.c:CeedVectorSetValueStrided", "interface/ceed-vector.c:CeedVectorCopyStrided"]}
{"id": "C10", "title": "Reference counting is exact", "statement": "For every history of create / reference-copy / destroy over any set of handle variables, an object is destroyed exactly when its last handle is destroyed or overwritten: never while a handle still refers to it and exactly once.", "quantifier": "every history over any number of objects and handles, including copying a handle onto itself", "why_tests_cant": "unbounded histories and aliasing of handles", "anchors": ["interface/ceed-vector.c:CeedVectorReferenceCopy", "interface/ceed-vector.c:CeedVectorDestroy", "interface/ceed.c:CeedReferenceCopy", "interface/ceed.c:CeedDestroy", "interface/ceed-elemrestriction.c:CeedElemRestrictionReferenceCopy", "interface/ceed-operator.c:CeedOperatorReferenceCopy"]}
{"id": "C11", "title": "Restriction gathers the right entries", "statement": "Applying a restriction without transpose puts into every E-vector entry (element, node, component) exactly the L-vector entry designated by the offsets (or strides), with the sign of the orientation, or the tridiagonal combination for curl-oriented restrictions, in the published E-layout.", "quantifier": "all restriction types, numbers of elements/nodes/components, component strides, block sizes, offsets and vectors", "why_tests_cant": "unbounded sizes and offsets", "anchors": ["backends/ref/ceed-ref-restriction.c:CeedElemRestrictionApply_Ref_Core", "interface/ceed-elemrestriction.c:CeedElemRestrictionCreate", "interface/ceed-elemrestriction.c:CeedElemRestrictionCreateOriented", "interface/ceed-elemrestriction.c:CeedElemRestrictionCreateCurlOriented", "interface/ceed-elemrestriction.c:CeedElemRestrictionCreateStrided"]}
{"id": "C12", "title": "Restriction transpose is the adjoint and accumulates", "statement": "Applying a restriction in transpose mode adds E^T u to the previous contents of the L-vector, where <E^T u, w> = <u, E w> for all u, w.", "quantifier": "all restriction types, sizes, offsets, orientations and vectors", "why_tests_cant": "adjointness is a statement over all pairs of vectors", "anchors": ["backends/ref/ceed-ref-restriction.c:CeedElemRestrictionApplyOffsetTranspose_Ref_Core", "backends/ref/ceed-ref-restriction.c:CeedElemRestrictionApplyOrientedTranspose_Ref_Core", "backends/ref/ceed-ref-restriction.c:CeedElemRestrictionApplyCurlOrientedTranspose_Ref_Core", "backends/ref/ceed-ref-restriction.c:CeedElemRestrictionApplyStridedTranspose_Ref_Core"]}
{"id": "C13", "title": "Accepted restrictions are memory safe", "statement": "If creating a restriction succeeds and the vectors passed to Apply have the lengths Apply checks for, no access is made outside the L-vector, E-vector, offsets or orientation arrays.", "quantifier": "all creation arguments and all applies", "why_tests_cant": "needs all offset arrays and sizes", "anchors": ["backends/ref/ceed-ref-restriction.c:CeedElemRestrictionCreate_Ref", "interface/ceed-elemrestriction.c:CeedElemRestrictionApply", "interface/ceed-elemrestriction.c:CeedElemRestrictionCreateBlocked"]}
{"id": "C14", "title": "Blocked restriction agrees with the plain one", "statement": "A blocked restriction produces, for every real element, the same values as the unblocked restriction built from the same offsets, up to the interleaving of the layout; in transpose mode the padding elements of the last block contribute nothing.", "quantifier": "all block sizes (dividing or not the number of elements), sizes, offsets and vectors", "why_tests_cant": "all sizes and block sizes", "anchors": ["interface/ceed-elemrestriction.c:CeedElemRestrictionCreateBlocked", "interface/ceed-elemrestriction.c:CeedPermutePadOffsets", "backends/ref/ceed-ref-restriction.c:CeedElemRestrictionApply_Ref"]}
{"id": "C15", "title": "Applying all blocks equals applying the restriction", "statement": "For a blocked restriction, ApplyBlock for block = 0..num_block-1 yields block by block the same entries as Apply (and in transpose mode the same accumulated L-vector), and block numbers outside that range are rejected.", "quantifier": "all restrictions, blocks and vectors", "why_tests_cant": "all sizes", "anchors": ["backends/ref/ceed-ref-restriction.c:CeedElemRestrictionApplyBlock_Ref", "interface/ceed-elemrestriction.c:CeedElemRestrictionApplyBlock"]}
{"id": "C16", "title": "Multiplicity counts occurrences", "statement": "CeedElemRestrictionGetMultiplicity sets every entry of the result to the number of (element, node) pairs referring to it.", "quantifier": "all offset arrays and sizes", "why_tests_cant": "all offset arrays", "anchors": ["interface/ceed-elemrestriction.c:CeedElemRestrictionGetMultiplicity"]}
{"id": "C17", "title": "Specialised kernels agree with the generic one", "statement": "Which specialised kernel is selected for (components, block size, unit component stride) never changes the result of applying a restriction.", "quantifier": "all restrictions and vectors", "why_tests_cant": "the dispatch table is indexed by data; each entry must agree for all inputs", "anchors": ["backends/ref/ceed-ref-restriction.c:CeedElemRestrictionCreate_Ref", "backends/ref/ceed-ref-restriction.c:CeedElemRestrictionApply_Ref_110"]}
{"id": "C18", "title": "Unsigned and unoriented application", "statement": "Applying without signs equals applying the restriction whose orientation is replaced by absolute values; for non-oriented restrictions the variants coincide with Apply; applying without orientation equals the restriction with the same offsets and no orientation.", "quantifier": "all restriction types, orientations, sizes and vectors", "why_tests_cant": "all inputs", "anchors": ["backends/ref/ceed-ref-restriction.c:CeedElemRestrictionApplyUnsigned_Ref", "backends/ref/ceed-ref-restriction.c:CeedElemRestrictionApplyUnoriented_Ref", "interface/ceed-elemrestriction.c:CeedElemRestrictionCreateUnsignedCopy", "interface/ceed-elemrestriction.c:CeedElemRestrictionCreateUnorientedCopy"]}
{"id": "C19", "title": "Points restriction", "statement": "For an at-points restriction element e owns exactly the points listed in its slice; the per-element gather, its scatter and the reported per-element, minimum and maximum numbers of points agree with these slices.", "quantifier": "all point distributions over elements, including empty elements", "why_tests_cant": "all distributions", "anchors": ["interface/ceed-elemrestriction.c:CeedElemRestrictionCreateAtPoints", "interface/ceed-elemrestriction.c:CeedElemRestrictionGetNumPointsInElement", "interface/ceed-elemrestriction.c:CeedElemRestrictionGetMaxPointsInElement", "interface/ceed-elemrestriction.c:CeedElemRestrictionGetMinPointsInElement", "backends/ref/ceed-ref-restriction.c:CeedElemRestrictionApplyAtPointsInElement_Ref"]}
{"id": "C20", "title": "Tensor contraction", "statement": "A tensor contraction computes v[a,j,c] (+)= sum_b t[j,b] u[a,b,c] (t transposed in transpose mode); it is linear and the transpose contraction is its adjoint.", "quantifier": "all sizes A,B,C,J, all tensors", "why_tests_cant": "all sizes and entries", "anchors": ["backends/ref/ceed-ref-tensor.c:CeedTensorContractApplyCore_Ref", "interface/ceed-tensor.c:CeedTensorContractApply", "interface/ceed-tensor.c:CeedTensorContractStridedApply"]}
{"id": "C21", "title": "Tensor-product interpolation equals the assembled matrix", "statement": "For a tensor basis, applying interpolation (either transpose mode) equals multiplication by the full matrix returned by CeedBasisGetInterp (or its transpose) for each component and element.", "quantifier": "all dim, num_comp, P_1d, Q_1d, num_elem, 1D matrices and inputs", "why_tests_cant": "all dimensions and entries", "anchors": ["backends/ref/ceed-ref-basis.c:CeedBasisApplyCore_Ref", "interface/ceed-basis.c:CeedBasisGetInterp"]}
{"id": "C22", "title": "Tensor-product gradient equals the assembled matrix", "statement": "For a tensor basis, applying the gradient equals multiplication by the full matrix returned by CeedBasisGetGrad, whichever internal evaluation strategy the dimensions select.", "quantifier": "all dim, num_comp, P_1d, Q_1d, num_elem, 1D matrices and inputs", "why_tests_cant": "three code paths, all dimensions", "anchors": ["backends/ref/ceed-ref-basis.c:CeedBasisApplyCore_Ref", "interface/ceed-basis.c:CeedBasisGetGrad", "interface/ceed-basis.c:CeedBasisGetCollocatedGrad"]}
{"id": "C23", "title": "Basis transpose is the adjoint, ApplyAdd accumulates", "statement": "CeedBasisApply in transpose mode is the adjoint of the non-transpose application for every evaluation mode; CeedBasisApplyAdd gives the old contents plus what CeedBasisApply would give.", "quantifier": "all bases, modes, vectors", "why_tests_cant": "all vectors; accumulation depends on prior contents", "anchors": ["backends/ref/ceed-ref-basis.c:CeedBasisApply_Ref", "backends/ref/ceed-ref-basis.c:CeedBasisApplyAdd_Ref", "interface/ceed-basis.c:CeedBasisApplyAdd"]}
{"id": "C24", "title": "Quadrature weights of a tensor basis", "statement": "CEED_EVAL_WEIGHT yields, at every point of every element, the product of the 1D weights of its coordinates.", "quantifier": "all dim, Q_1d, num_elem, weights", "why_tests_cant": "all sizes", "anchors": ["backends/ref/ceed-ref-basis.c:CeedBasisApplyCore_Ref"]}
{"id": "C25", "title": "Evaluation at arbitrary points", "statement": "CeedBasisApplyAtPoints evaluates (values and derivatives) the polynomial interpolating the field at exactly the given points; transpose mode is the adjoint and depends only on its arguments.", "quantifier": "all tensor bases, all numbers of points including zero, all coordinates and vectors", "why_tests_cant": "all point sets", "anchors": ["interface/ceed-basis.c:CeedBasisApplyAtPoints_Core", "interface/ceed-basis.c:CeedChebyshevPolynomialsAtPoint", "interface/ceed-basis.c:CeedChebyshevDerivativeAtPoint", "interface/ceed-basis.c:CeedBasisGetChebyshevInterp1D"]}
{"id": "C26", "title": "Lagrange bases interpolate", "statement": "CeedBasisCreateTensorH1Lagrange tabulates exactly the Lagrange cardinal polynomials of the nodes and their derivatives at the quadrature points, hence reproduces every polynomial of degree < P and its derivative; when it reports success a basis has been created.", "quantifier": "all P, Q >= 1, all distinct nodes and all evaluation points", "why_tests_cant": "all node sets and polynomials", "anchors": ["interface/ceed-basis.c:CeedBasisCreateTensorH1Lagrange"]}
{"id": "C27", "title": "QR factorisation and pseudoinverse", "statement": "CeedQRFactorization factors A into an orthogonal matrix times an upper triangular one, CeedHouseholderApplyQ applies that orthogonal matrix or its transpose, and CeedMatrixPseudoinverse returns a left inverse, for every matrix of full column rank; a wider-than-tall matrix is rejected.", "quantifier": "all m >= n >= 1 and all matrices", "why_tests_cant": "all matrices", "anchors": ["interface/ceed-basis.c:CeedQRFactorization", "interface/ceed-basis.c:CeedHouseholderApplyQ", "interface/ceed-basis.c:CeedHouseholderReflect", "interface/ceed-basis.c:CeedMatrixPseudoinverse", "interface/ceed-basis.c:CeedMatrixMatrixMultiply"]}
{"id": "C28", "title": "Basis application is memory safe", "statement": "If the length checks of CeedBasisApply / CeedBasisApplyAtPoints pass, the application does not read or write outside u, v and the coordinates.", "quantifier": "all bases, modes, numbers of elements/points and vector lengths", "why_tests_cant": "all sizes", "anchors": ["interface/ceed-basis.c:CeedBasisApplyCheckDims", "interface/ceed-basis.c:CeedBasisApplyAtPointsCheckDims", "backends/ref/ceed-ref-basis.c:CeedBasisApplyCore_Ref"]}
{"id": "C29", "title": "Context field names are unique and permanent", "statement": "Registering a field under an already registered name fails and changes nothing; every registered field stays retrievable under its name with the offset, type, size and count it was registered with.", "quantifier": "every sequence of registrations", "why_tests_cant": "unbounded sequences and growth of the field table", "anchors": ["interface/ceed-qfunctioncontext.c:CeedQFunctionContextRegisterGeneric", "interface/ceed-qfunctioncontext.c:CeedQFunctionContextGetFieldLabel", "interface/ceed-qfunctioncontext.c:CeedQFunctionContextGetFieldIndex"]}
{"id": "C30", "title": "Context set/get round trip", "statement": "Setting a field and reading it returns the values set, fields occupying disjoint bytes are unchanged, and a type mismatch is rejected without effect.", "quantifier": "all field layouts inside the context, all values, every preceding history", "why_tests_cant": "all layouts", "anchors": ["interface/ceed-qfunctioncontext.c:CeedQFunctionContextSetGeneric", "interface/ceed-qfunctioncontext.c:CeedQFunctionContextGetGenericRead"]}
{"id": "C31", "title": "Context state changes exactly on change", "statement": "Setting a field bumps the context state if and only if the stored bytes change; the state never decreases; equal states at two moments imply equal contents.", "quantifier": "every history of context calls", "why_tests_cant": "pairs of moments of unbounded histories", "anchors": ["interface/ceed-qfunctioncontext.c:CeedQFunctionContextSetGeneric", "interface/ceed-qfunctioncontext.c:CeedQFunctionContextGetState", "interface/ceed-qfunctioncontext.c:CeedQFunctionContextSetData"]}
{"id": "C32", "title": "Context data access is exclusive and safe", "statement": "No write access to context data coexists with another access, and a pointer handed out for reading stays valid until restored.", "quantifier": "every history of context calls", "why_tests_cant": "unbounded histories", "anchors": ["interface/ceed-qfunctioncontext.c:CeedQFunctionContextGetData", "interface/ceed-qfunctioncontext.c:CeedQFunctionContextGetDataRead", "interface/ceed-qfunctioncontext.c:CeedQFunctionContextSetData", "interface/ceed-qfunctioncontext.c:CeedQFunctionContextTakeData", "interface/ceed-qfunctioncontext.c:CeedQFunctionContextDestroy"]}
{"id": "C33", "title": "Backend selection", "statement": "CeedInit selects, among the registered backends, one whose registered prefix matches the longest part of the requested resource (up to a colon), breaking ties by priority; it fails if the resource stem is not fully matched; the choice does not depend on registration order when priorities are distinct.", "quantifier": "all sets and orders of registered backends and all resource strings", "why_tests_cant": "all strings and registration orders", "anchors": ["interface/ceed.c:CeedInit", "interface/ceed.c:CeedRegisterImpl"]}
{"id": "C34", "title": "Parents, delegates and error routing", "statement": "The parent of any Ceed reached through delegation or operator fallback is the root the user created, and an error raised on any such Ceed is the message the user reads from the root.", "quantifier": "all delegation/fallback chains", "why_tests_cant": "chains of any depth", "anchors": ["interface/ceed.c:CeedGetParent", "interface/ceed.c:CeedErrorStore", "interface/ceed.c:CeedGetErrorMessage", "interface/ceed.c:CeedSetDelegate", "interface/ceed.c:CeedSetObjectDelegate"]}
{"id": "C35", "title": "Work vectors are never shared", "statement": "CeedGetWorkVector returns a vector of at least the requested length that no other caller holds; restoring returns it to the pool; get/restore pairs leave the Ceed's lifetime unchanged.", "quantifier": "every history of get/restore calls and all lengths", "why_tests_cant": "unbounded histories", "anchors": ["interface/ceed.c:CeedGetWorkVector", "interface/ceed.c:CeedRestoreWorkVector", "interface/ceed.c:CeedAddWorkVector"]}
{"id": "C36", "title": "QFunction fields are unique and frozen on use", "statement": "Field names of a QFunction are unique across inputs and outputs; once the QFunction has been inspected or applied no field can be added; no accepted history writes outside the field tables.", "quantifier": "every sequence of AddInput/AddOutput/GetFields/Apply", "why_tests_cant": "unbounded histories", "anchors": ["interface/ceed-qfunction.c:CeedQFunctionAddInput", "interface/ceed-qfunction.c:CeedQFunctionAddOutput", "interface/ceed-qfunction.c:CeedQFunctionGetFields", "interface/ceed-qfunction.c:CeedQFunctionApply"]}
{"id": "C37", "title": "Operator application", "statement": "Applying an operator computes sum over elements of E_out^T B_out^T f(B_in E_in u) for its QFunction f; ApplyAdd adds exactly that to the old contents of every output.", "quantifier": "all field sets, element counts, QFunctions and vectors", "why_tests_cant": "all operators", "anchors": ["interface/ceed-operator.c:CeedOperatorApply", "interface/ceed-operator.c:CeedOperatorApplyAdd", "backends/ref/ceed-ref-operator.c:CeedOperatorApplyAdd_Ref"]}
{"id": "C38", "title": "Composite operators add up", "statement": "Applying a composite operator gives the sum of the actions of its sub-operators, whatever their number and order.", "quantifier": "all lists of sub-operators and vectors", "why_tests_cant": "all lists", "anchors": ["interface/ceed-operator.c:CeedOperatorApply", "interface/ceed-operator.c:CeedOperatorApplyAdd", "interface/ceed-operator.c:CeedCompositeOperatorAddSub"]}
{"id": "C39", "title": "Caching of passive inputs is transparent", "statement": "The result of an operator application depends only on the current values of its vectors, never on earlier applications (skipping of unchanged restrictions is unobservable).", "quantifier": "every history of operator applications, assemblies and vector modifications through the API", "why_tests_cant": "unbounded histories", "anchors": ["backends/ref/ceed-ref-operator.c:CeedOperatorSetupInputs_Ref", "backends/ref/ceed-ref-operator.c:CeedOperatorLinearAssembleQFunctionCore_Ref"]}
{"id": "C40", "title": "Sharing E-vectors between fields is transparent", "statement": "Operators whose fields share the same vector and restriction give the same result as if each field were treated separately.", "quantifier": "all field sets with any sharing pattern and evaluation modes", "why_tests_cant": "all sharing patterns", "anchors": ["backends/ref/ceed-ref-operator.c:CeedOperatorSetupFields_Ref", "backends/ref/ceed-ref-operator.c:CeedOperatorOutputBasis_Ref"]}
{"id": "C41", "title": "Ready means complete", "statement": "An operator that passes the readiness check (or is applied successfully) has every QFunction field set exactly once with compatible element counts, quadrature points, components and vector lengths; after that it can no longer be changed.", "quantifier": "every sequence of SetField calls", "why_tests_cant": "unbounded histories", "anchors": ["interface/ceed-operator.c:CeedOperatorSetField", "interface/ceed-operator.c:CeedOperatorCheckField", "interface/ceed-operator.c:CeedOperatorCheckReady"]}
{"id": "C42", "title": "Active vector lengths", "statement": "CeedOperatorGetActiveVectorLengths reports the lengths of the active L-vectors of the operator (for composites: the common lengths of the sub-operators), the same on every call; incompatible sub-operators are rejected.", "quantifier": "all operators, composites and call sequences", "why_tests_cant": "history dependence", "anchors": ["interface/ceed-operator.c:CeedOperatorGetActiveVectorLengths", "interface/ceed-operator.c:CeedCompositeOperatorAddSub"]}
{"id": "C43", "title": "Assembled QFunction", "statement": "For a QFunction linear in its active inputs, the assembled QFunction reproduces its action at every quadrature point, and reassembling gives the same result whatever happened in between.", "quantifier": "all linear QFunctions, sizes, histories of Apply and Assemble", "why_tests_cant": "all histories", "anchors": ["backends/ref/ceed-ref-operator.c:CeedOperatorLinearAssembleQFunctionCore_Ref", "interface/ceed-preconditioning.c:CeedOperatorLinearAssembleQFunctionBuildOrUpdate"]}
{"id": "C44", "title": "Assembled diagonal", "statement": "CeedOperatorLinearAssembleDiagonal / AddDiagonal / point-block variants give (add) exactly the (block) diagonal of the matrix of the operator.", "quantifier": "all linear operators", "why_tests_cant": "all operators", "anchors": ["interface/ceed-preconditioning.c:CeedSingleOperatorLinearAssembleAddDiagonal_Mesh", "interface/ceed-preconditioning.c:CeedOperatorLinearAssembleDiagonal"]}
{"id": "C45", "title": "Full assembly", "statement": "The triples returned by CeedOperatorLinearAssembleSymbolic and CeedOperatorLinearAssemble, summed, are the matrix of the operator; the number of entries reported is the number of triples written.", "quantifier": "all linear operators and composites", "why_tests_cant": "all operators", "anchors": ["interface/ceed-preconditioning.c:CeedSingleOperatorAssembleSymbolic", "interface/ceed-preconditioning.c:CeedSingleOperatorAssemble", "interface/ceed-preconditioning.c:CeedSingleOperatorAssemblyCountEntries"]}
{"id": "C46", "title": "Multigrid transfer operators", "statement": "The restriction operator created for a multigrid level is the transpose of the prolongation operator.", "quantifier": "all fine operators, coarse spaces and multiplicities", "why_tests_cant": "all operators", "anchors": ["interface/ceed-preconditioning.c:CeedSingleOperatorMultigridLevel", "interface/ceed-preconditioning.c:CeedOperatorMultigridLevelCreate"]}
{"id": "C47", "title": "FLOP estimates", "statement": "CeedOperatorGetFlopsEstimate / CeedBasisGetFlopsEstimate / CeedElemRestrictionGetFlopsEstimate count the floating point operations of the corresponding tensor contractions and scatters; for composites they add up.", "quantifier": "all sizes and modes", "why_tests_cant": "all sizes", "anchors": ["interface/ceed-basis.c:CeedBasisGetFlopsEstimate", "interface/ceed-operator.c:CeedOperatorGetFlopsEstimate", "interface/ceed-elemrestriction.c:CeedElemRestrictionGetFlopsEstimate"]}
{"id": "C48", "title": "Composite context labels", "statement": "Setting a context field through a composite operator sets it in every sub-operator that has the field and nowhere else; labels belonging to another operator or to an outdated composite are rejected.", "quantifier": "all composites and histories", "why_tests_cant": "unbounded histories", "anchors": ["interface/ceed-operator.c:CeedOperatorContextSetGeneric", "interface/ceed-operator.c:CeedOperatorGetContextFieldLabel"]}
{"id": "C49", "title": "Objects are created by the delegate set for their kind", "statement": "Objects of a kind are created by the delegate set for that kind, or by the default delegate when none was set for it; setting delegates for several kinds keeps each of them.", "quantifier": "every history of delegate settings on any number of Ceed contexts and every object kind", "why_tests_cant": "The lookup walks a table that grows with the calls; a test sees a few tables, the claim is about all sequences of settings.", "anchors": ["interface/ceed.c:CeedGetObjectDelegate", "interface/ceed.c:CeedSetObjectDelegate", "interface/ceed.c:CeedSetDelegate"]}
{"id": "C50", "title": "Creating a QFunction by name returns the QFunction registered under that name", "statement": "After any sequence of CeedQFunctionRegister calls that all succeed, CeedQFunctionCreateInteriorByName returns the QFunction registered under exactly the requested name whenever no other registered name extends it, and fails when no registered name starts with the request. Every name in the shipped gallery is found. A request which is a proper prefix of an earlier registered name is answered with that earlier QFunction, which is a disagreement with the documented behaviour.", "quantifier": "every sequence of registrations and every requested name", "why_tests_cant": "The registry is scanned with a prefix-length match; whether the scan returns the right entry depends on all names registered before and on their order, of which tests try only the shipped one.", "anchors": ["interface/ceed-qfunction.c:CeedQFunctionCreateInteriorByName", "interface/ceed-qfunction.c:CeedQFunctionRegister", "gallery/ceed-gallery-list.h"]}
{"id": "C51", "title": "Gallery QFunctions compute their documented pointwise function at every point", "statement": "For every number of points and every component count: Identity copies its input, Scale multiplies by the scale factor, the mass builders store the quadrature weight times the determinant of the Jacobian, the mass appliers multiply by the stored value, the Poisson builders store w det(J) J^-1 J^-T in symmetric storage when the Jacobians are invertible, and the Poisson appliers multiply each component's gradient by the stored matrix. No kernel accesses memory outside arrays of the declared sizes.", "quantifier": "every number of quadrature points, number of components, and all input values (with invertible Jacobians for Poisson)", "why_tests_cant": "Tests use affine or mildly curved meshes with a few points, where swapped off-diagonal entries or transposed cofactors can cancel.", "anchors": ["include/ceed/jit-source/gallery/ceed-identity.h", "include/ceed/jit-source/gallery/ceed-scale.h", "include/ceed/jit-source/gallery/ceed-massapply.h", "include/ceed/jit-source/gallery/ceed-mass2dbuild.h", "include/ceed/jit-source/gallery/ceed-poisson3dbuild.h", "include/ceed/jit-source/gallery/ceed-poisson3dapply.h"]}
{"id": "C52", "title": "Coarse multigrid operators are Galerkin coarse operators", "statement": "The coarse operator created for a multigrid level acts as the fine operator between the transfer operators created with it, P^T A P, when the coarse basis is the fine basis composed with the prolongation on each element and prolonged functions are continuous: applying the coarse operator to any vector gives what one gets by prolonging, applying the fine operator and restricting. This holds for every QFunction, linear or not.", "quantifier": "every operator, mesh, pair of restrictions and bases with nested spaces, every QFunction, coarse vector and passive input", "why_tests_cant": "Tests compare a few mass and diffusion operators on one mesh; the claim is about every QFunction and every mesh, including multiplicities of shared nodes.", "anchors": ["interface/ceed-preconditioning.c:CeedSingleOperatorMultigridLevel", "interface/ceed-preconditioning.c:CeedOperatorMultigridLevelCreate"]}
{"id": "C53", "title": "CPU backends with other tensor contractions give the results of the reference backend", "statement": "On the backends that replace only the tensor contraction (/cpu/self/opt, /cpu/self/avx), CeedBasisApply and CeedBasisApplyAdd give for every basis, evaluation mode, transpose mode and number of elements the same vectors and the same errors as on the reference backend, in exact arithmetic, and never access memory outside the vectors. On avx the claim fails for one element with one node or one quadrature point along a line and five or more results, where whole registers are loaded and stored beyond the vector.", "quantifier": "every basis, evaluation mode, transpose mode, number of elements, vectors, and previous contents of registers and temporary arrays", "why_tests_cant": "The vectorised loops branch on the sizes modulo 4 and 8 in three dimensions; tests try a few sizes, and reading beyond a vector usually goes unnoticed.", "anchors": ["backends/avx/ceed-avx-tensor.c:CeedTensorContractApply_Avx", "backends/opt/ceed-opt-tensor.c:CeedTensorContractApply_Opt", "backends/ref/ceed-ref-basis.c:CeedBasisApplyCore_Ref"]}
{"id": "C54", "title": "CPU operators that work on blocks of elements give the results of the reference backend", "statement": "On the backends whose operators process several elements at a time (/cpu/self/opt/serial, /cpu/self/opt/blocked, /cpu/self/avx/*, and the blocked backend), CeedOperatorApply and CeedOperatorApplyAdd give, after any history of applications and vector changes, exactly the vectors the reference backend gives, for every number of elements whether or not it is a multiple of the block size; the padding elements of the last block contribute nothing and no access leaves the arrays. On the backends that restrict block by block (opt, avx) the claim fails when the active input is also written and for vectors longer than the restriction needs; on the blocked backend it holds there too.", "quantifier": "every operator with consistent fields, every block size, every number of elements, every QFunction that works point by point, every history of calls and vector changes", "why_tests_cant": "Tests compare a few meshes; the last block, sharing of element vectors between fields and cached passive inputs interact differently for each combination of sizes, fields and histories.", "anchors": ["backends/opt/ceed-opt-operator.c:CeedOperatorApplyAdd_Opt", "backends/opt/ceed-opt-operator.c:CeedOperatorSetupInputs_Opt", "backends/opt/ceed-opt-operator.c:CeedOperatorInputBasis_Opt", "backends/opt/ceed-opt-operator.c:CeedOperatorOutputBasis_Opt", "backends/blocked/ceed-blocked-operator.c:CeedOperatorApplyAdd_Blocked"]}
{"id": "C55", "title": "The multiplicity of nodes in a composite operator counts sub-operators", "statement": "CeedCompositeOperatorGetMultiplicity fills the given vector so that each entry is the number of sub-operators, other than those whose indices are to be skipped, in whose elements the corresponding entry of the active vector occurs, independently of how often it occurs within one sub-operator and of orientations and signs. A sub-operator without an active input, or with active inputs of different restrictions, is reported as an error.", "quantifier": "all composite operators, all restrictions of their sub-operators with any numbers of elements, components and nodes and any offsets, all lists of indices to skip, all vectors", "why_tests_cant": "The result depends on all the offsets of all sub-operators and on the list of indices to skip; the unit tests check two small meshes.", "anchors": ["interface/ceed-preconditioning.c: CeedCompositeOperatorGetMultiplicity", "interface/ceed-operator.c: CeedOperatorGetActiveElemRestriction", "interface/ceed-elemrestriction.c: CeedElemRestrictionCreateUnorientedCopy, CeedElemRestrictionCreateVector"]}
{"id": "C56", "title": "Operators at points apply the QFunction at the points of every element", "statement": "CeedOperatorApply and CeedOperatorApplyAdd of an operator created with CeedOperatorCreateAtPoints give, after any history of applications, changes of vectors and uses of the bases, the sum over the elements of what the QFunction makes of the field values at the points of the element: fields with a basis are evaluated at the coordinates given to CeedOperatorAtPointsSetPoints and tested with the same shape functions, fields without basis are read and added point by point. Elements may have different numbers of points; values of one element never leak into another. The call succeeds exactly if the vectors hold data and have the right lengths, and no access leaves the arrays.", "quantifier": "all operators at points with consistent fields, all numbers of elements, all distributions of points over the elements, all coordinates, all QFunctions, all histories of applications (failed ones included), vector changes and uses of the bases elsewhere", "why_tests_cant": "The vectors for one element have room for the largest number of points and are reused for every element and every call; whether stale values show up depends on the numbers of points of all elements, on which fields share vectors and on the history.", "anchors": ["backends/ref/ceed-ref-operator.c: CeedOperatorSetupFieldsAtPoints_Ref, CeedOperatorSetupAtPoints_Ref, CeedOperatorInputBasisAtPoints_Ref, CeedOperatorOutputBasisAtPoints_Ref, CeedOperatorApplyAddAtPoints_Ref", "interface/ceed-operator.c: CeedOperatorCreateAtPoints, CeedOperatorAtPointsSetPoints, CeedOperatorApply, CeedOperatorApplyAdd"]}
{"id": "C57", "title": "Projection bases give the best fit, and are exact for nested spaces", "statement": "CeedBasisCreateProjection(basis_from, basis_to) for bases with the same quadrature points and the same function space, where the node values of basis_to are determined by the values at the quadrature points, creates a basis with the components and nodes of basis_from and one point per node of basis_to. Applying it with CEED_EVAL_INTERP to node values of basis_from gives the unique node values of basis_to whose interpolation at the quadrature points has the least squared distance to the interpolation by basis_from, for every component and element; CEED_EVAL_GRAD (H1) does the same for each gradient component. Hence functions of basis_from that are functions of basis_to are reproduced exactly at the quadrature points (prolongation between Lagrange bases of increasing order), and projecting a basis to itself changes nothing. Bases with different numbers of points or different spaces are rejected.", "quantifier": "all pairs of bases, tensor or not, of every dimension, component count and size, all node values, all numbers of elements", "why_tests_cant": "The property is about every node vector of every pair of bases; the tensor basis is built from 1D pseudoinverses and its being the least-squares fit over the full element is a theorem about Kronecker products, not about sizes.", "anchors": ["interface/ceed-basis.c: CeedBasisCreateProjection, CeedBasisCreateProjectionMatrices, CeedMatrixPseudoinverse, CeedMatrixMatrixMultiply", "interface/ceed-basis.c: CeedBasisCreateTensorH1, CeedBasisCreateH1"]}
{"id": "C58", "title": "The pattern of the point block diagonal fits its values", "statement": "CeedOperatorLinearAssemblePointBlockDiagonalSymbolic returns as many pairs as CeedOperatorLinearAssemblePointBlockDiagonal returns values, in the same order: adding every value at its (row, column) pair gives the matrix whose entries are those of the operator's matrix where row and column belong to the same node, and zero elsewhere, for single and composite operators. The pairs are unique. Operators that are not square and parts whose active restrictions differ in component stride or number of components are reported as errors.", "quantifier": "all single and composite operators whose parts have one active basis and restriction, any numbers of parts, elements, nodes and components, adjacent or strided components, any QFunction linear in the active inputs", "why_tests_cant": "the pairing of two arrays computed by different functions has to hold for every mesh numbering, component layout and combination of sub-operators; tests compare a few meshes and never see nodes outside all elements", "anchors": ["interface/ceed-preconditioning.c: CeedOperatorLinearAssemblePointBlockDiagonalSymbolic, CeedOperatorLinearAssemblePointBlockDiagonal, CeedOperatorCreateActivePointBlockRestriction"]}
{"id": "C59", "title": "Fortran handles designate the objects they were created for", "statement": "In the Fortran interface an object is known by an integer. The handle returned by a creation designates the object that was created until this object is destroyed, whatever other objects of the kind are created, destroyed or copied in between and however often an operation fails. A new handle is never one that is in use and never one of the special constants; a handle is not given out again while objects of its kind exist; destroying a handle sets the variable to the null constant, destroying the null constant does nothing, and after the last object all memory of the table is released. The special constants mean the same to every function, strings arrive unchanged, and error codes of Fortran QFunctions are reported.", "quantifier": "all histories of creations (single and threefold, successful and failing), copies of handles and destructions, for every kind of object; all arguments and strings", "why_tests_cant": "Handles stay valid only if the table is kept consistent over every order of creations and destructions, with reallocation at sizes a test does not reach; a test runs one order.", "anchors": ["interface/ceed-fortran.c: fCeedVectorCreate, fCeedVectorDestroy, fCeedOperatorMultigridLevelCreate, fCeedOperatorSetField, fCeedOperatorApply, fCeedOperatorApplyAdd, fCeedBasisApply, FIX_STRING, fCeedQFunctionCreateInterior, CeedQFunctionFortranStub, fCeedQFunctionSetContext"]}
{"id": "C60", "title": "Vectors of the checking backend behave as documented and report changes of read-only arrays", "statement": "On the backend that checks memory accesses, every sequence of valid vector calls has the documented effect on the values of all vectors, although a program only ever gets copies of them; failing calls change nothing. Access for reading and for writing is granted exactly under the documented conditions. When the last reader gives its array back, an error is reported exactly if the array is no longer what was granted. Arrays lent to a vector hold its values after the end of a write access and after synchronization and come back with its values; other arrays of the program are left alone. Changing the values of a vector increases its state counter.", "quantifier": "all histories of vector calls and of writes by the program to its own arrays and to arrays granted for writing or (wrongly) for reading, for any number of vectors, lengths, scalars and arithmetic", "why_tests_cant": "What a wrong write does shows only at a later call and depends on the number of readers and on all calls in between; tests try a few sequences.", "anchors": ["backends/memcheck/ceed-memcheck-vector.c: CeedVectorSetArray_Memcheck, CeedVectorSyncArray_Memcheck, CeedVectorTakeArray_Memcheck, CeedVectorGetArray_Memcheck, CeedVectorGetArrayRead_Memcheck, CeedVectorGetArrayWrite_Memcheck, CeedVectorRestoreArray_Memcheck, CeedVectorRestoreArrayRead_Memcheck, CeedVectorScale_Memcheck, CeedVectorDestroy_Memcheck", "interface/ceed-vector.c: CeedVectorGetArrayRead, CeedVectorRestoreArrayRead, CeedVectorScale, CeedVectorAXPY, CeedVectorPointwiseMult, CeedVectorReciprocal"]}
{"id": "C61", "title": "Element restrictions on a GPU give the reference result on every schedule of the threads", "statement": "On the CUDA and HIP reference backends, applying an element restriction of any type, in any variant (signed, unsigned, unoriented), gives the same values as the mathematical restriction the user described, laid out as reported by the E-vector layout: from L-vector to E-vector exactly the element values, from E-vector to L-vector the old contents plus all contributions. This holds for atomic and for deterministic additions, however the threads of the launch are interleaved; no thread accesses memory out of bounds, no two threads race, every execution ends. Vectors that are too short are refused before anything is launched.", "quantifier": "all numbers of elements, nodes and components, offsets, orientations and strides accepted at creation that designate entries of the L-vector, all vectors, and all interleavings of the threads of the launch", "why_tests_cant": "The outcome depends on the interleaving of thousands of threads; a test sees one interleaving per run, a lost update or a race shows only on unlucky ones, and the numbers of blocks and threads depend on the sizes.", "anchors": ["include/ceed/jit-source/cuda/cuda-ref-restriction-offset.h: OffsetNoTranspose, OffsetTranspose", "include/ceed/jit-source/cuda/cuda-ref-restriction-oriented.h: OrientedNoTranspose, OrientedTranspose", "include/ceed/jit-source/cuda/cuda-ref-restriction-curl-oriented.h: CurlOrientedNoTranspose, CurlOrientedTranspose, CurlOrientedUnsignedNoTranspose, CurlOrientedUnsignedTranspose", "include/ceed/jit-source/cuda/cuda-ref-restriction-strided.h: StridedNoTranspose, StridedTranspose", "include/ceed/jit-source/hip/hip-ref-restriction-*.h: same kernels", "backends/cuda-ref/ceed-cuda-ref-restriction.c: CeedElemRestrictionCreate_Cuda, CeedElemRestrictionOffset_Cuda, CeedElemRestrictionApply_Cuda_Core"]}
{"id": "C62", "title": "Basis application on a GPU is the product with the basis matrices on every schedule of the threads", "statement": "On the CUDA and HIP reference backends, applying a basis to a number of elements is multiplication by the matrix of the basis for the evaluation mode (for tensor bases the matrix of products of 1D entries which the interpolation and gradient queries return, for other bases the matrix given at creation), the transposed application is multiplication by the transposed matrix, and the adding application adds that product to the old contents. The same basis on the host backend gives the same values, each in the layout of its backend. The weights are the (products of 1D) quadrature weights. This holds however the threads of the launch are interleaved between barriers; no thread accesses global or shared memory out of bounds, no two threads race, no barrier is left waiting, every execution ends. Vectors that are too short are refused before anything is launched.", "quantifier": "all dimensions, components, numbers of nodes and quadrature points, basis matrices, numbers of elements, vectors, contents of uninitialised shared memory, limits of the device, and all interleavings of the threads of the launch", "why_tests_cant": "The kernels share buffers between the threads of a block, with barriers between the passes; a missing barrier or an index clash shows only on some interleavings, and a test sees one of them for a few sizes.", "anchors": ["include/ceed/jit-source/cuda/cuda-ref-basis-tensor.h: Interp, Grad, Weight", "include/ceed/jit-source/cuda/cuda-ref-basis-nontensor.h: Interp, InterpTranspose, Deriv, DerivTranspose, Weight", "include/ceed/jit-source/cuda/cuda-ref-basis-nontensor-templates.h: Contract, ContractTranspose", "include/ceed/jit-source/hip/hip-ref-basis-*.h: same kernels", "backends/cuda-ref/ceed-cuda-ref-basis.c: CeedBasisApplyCore_Cuda, CeedBasisApplyNonTensorCore_Cuda, CeedBasisCreateTensorH1_Cuda, CeedBasisCreateH1_Cuda, CeedBasisCreateHdiv_Cuda, CeedBasisCreateHcurl_Cuda", "interface/ceed-basis.c: CeedBasisApply, CeedBasisApplyAdd, CeedBasisApplyCheckDims"]}
{"id": "C63", "title": "Vectors with copies on the host and on a GPU stay coherent over every history", "statement": "On the CUDA reference backend a vector may have an array on the host and one on the device, each allocated by the library, given or lent by the program. After any history of calls, a vector either has no valid array or all its valid arrays contain the same values; every call does to these values what its documentation says, wherever they are, and returns arrays in the requested memory with the current values in them; no other vector and no array of the program changes; arrays that are lent stay in place until they are taken back, and while access is granted for writing the array handed out is the vector. Nothing out of bounds, freed or in the wrong memory is accessed, and every array the library allocated belongs to exactly one vector and is freed with it. The kernels compute the same on every schedule of their threads.", "quantifier": "all histories of calls (creation, setting, copying, lending, granting and restoring access, synchronising, taking, arithmetic, norms, destroying) on any number of vectors, with any lengths, values and arrays, and all interleavings of the threads of the kernels", "why_tests_cant": "Each call moves values between host and device lazily and invalidates one of the copies; a stale copy shows only after particular sequences of calls, of which there are infinitely many, and only on a machine with a GPU.", "anchors": ["backends/cuda-ref/ceed-cuda-ref-vector.c: CeedVectorSyncH2D_Cuda, CeedVectorSyncD2H_Cuda, CeedVectorSyncArray_Cuda, CeedVectorSetArray_Cuda, CeedVectorTakeArray_Cuda, CeedVectorGetArrayCore_Cuda, CeedVectorGetArrayWrite_Cuda, CeedVectorCopyStrided_Cuda, CeedVectorSetValue_Cuda, CeedVectorSetValueStrided_Cuda, CeedVectorNorm_Cuda, CeedVectorReciprocal_Cuda, CeedVectorScale_Cuda, CeedVectorAXPY_Cuda, CeedVectorAXPBY_Cuda, CeedVectorPointwiseMult_Cuda, CeedVectorDestroy_Cuda", "backends/cuda-ref/kernels/cuda-ref-vector.cu: all kernels", "interface/ceed-vector.c: all functions on vectors"]}
{"id": "C64", "title": "Symmetric eigenvalue problems are solved to the tolerance, or an error is reported", "statement": "CeedSymmetricSchurDecomposition of a symmetric matrix A with n > 1 rows: if it succeeds, the matrix it writes is orthogonal, the values it writes are the diagonal of QᵀAQ, and the entries of QᵀAQ off the diagonal are below a bound that is proportional to the tolerance, so that every column is an eigenvector and every value an eigenvalue up to that bound. CeedSimultaneousDiagonalization of a symmetric matrix A and a symmetric positive definite matrix B: if it succeeds, the matrix X it writes has XᵀAX = diag(lambda) and XᵀBX = I up to bounds proportional to the tolerance, with lambda ordered by magnitude. If the iteration does not converge, an error is returned; nothing outside of the arrays is accessed and nothing is divided by zero.", "quantifier": "all sizes, all symmetric matrices, all positive definite second matrices, all tolerances, any number of sweeps of the iteration", "why_tests_cant": "The iteration skips rotations, deflates at both ends and stops by local tests; errors accumulate over a number of sweeps that depends on the data. Tests can only sample matrices.", "anchors": ["interface/ceed-basis.c: CeedSymmetricSchurDecomposition, CeedSimultaneousDiagonalization, CeedGivensRotation, CeedHouseholderReflect, CeedMatrixMatrixMultiply"]}
{"id": "C65", "title": "Loading a source file puts its headers in place, once each, and changes nothing else", "statement": "CeedLoadSourceToBuffer returns the lines of the source file in order, where an include of a header named in quotes is replaced with the lines of that header (relative to the directory of the file that includes it), an include of a header of the library that kernels use is replaced with the lines of the first file found in the JIT source roots, includes of standard headers and `#pragma once` are left out, and every other line stays. Headers are put in place recursively. No header is put in place twice, under whatever relative name it is included. CeedLoadSourceToInitializedBuffer does the same for further files, without headers that are already there.", "quantifier": "all files, all directory trees and roots, any nesting of headers", "why_tests_cant": "The text is searched with character positions, and pieces are copied with hand-computed lengths; nested includes and names with dots are unbounded. Tests load a handful of files.", "anchors": ["interface/ceed-jit-tools.c: CeedLoadSourceToBuffer, CeedLoadSourceToInitializedBuffer, CeedLoadSourceAndInitializeBuffer, CeedNormalizePath, CeedCheckFilePath, CeedPathConcatenate, CeedGetJitAbsolutePath"]}
{"id": "C66", "title": "Operator application on a GPU is the action of the operator, on every schedule and after every history", "statement": "With the CUDA and HIP reference backends, CeedOperatorApplyAdd adds to each output vector exactly the sum over elements of E_out^T B_out^T f(B_in E_in u), the same as the reference backend of the host computes, and CeedOperatorApply stores it; vectors that are not outputs stay as they are. This holds for any number of fields of any modes, for fields that share vectors and restrictions (whose E-vectors are shared), whatever work vector is handed out, whatever the schedules of the kernels, and after any history of applications and changes of vectors (passive inputs are gathered again only when they change).", "quantifier": "all operators and fields, all element counts, all vectors, all schedules of every kernel launch, all histories", "why_tests_cant": "Which E-vectors are shared or borrowed, in which order fields are visited and what is skipped is decided by tables built from comparisons of all pairs of fields; the tests cover a handful of field patterns and only the schedules that happen.", "anchors": ["backends/cuda-ref/ceed-cuda-ref-operator.c: CeedOperatorSetup_Cuda, CeedOperatorSetupFields_Cuda, CeedOperatorInputRestrict_Cuda, CeedOperatorInputBasis_Cuda, CeedOperatorInputRestore_Cuda, CeedOperatorApplyAdd_Cuda", "backends/hip-ref/ceed-hip-ref-operator.hip.cpp", "backends/cuda-ref/ceed-cuda-ref-qfunction.c: CeedQFunctionApply_Cuda", "interface/ceed-operator.c: CeedOperatorApply, CeedOperatorApplyAdd"]}
{"id": "C67", "title": "The fast diagonalisation inverse of an operator solves the separable element problems", "statement": "CeedOperatorCreateFDMElementInverse creates an operator whose application to u stores the sum over elements of y, where y solves a (c M x ... x M + g sum_d M x ... x L x ... x M) y = u on the element, for each component: M and L are the 1D mass and (perturbed) stiffness matrices of the basis of the first active input, c and g tell whether active inputs are interpolated and differentiated, and a is the mean of the coefficients of the operator on that element, without the quadrature weights. For constant coefficients this matrix is the element matrix of the operator. Operators without active input or with another kind of basis are rejected.", "quantifier": "all operators, tensor bases of any dimension and size, restrictions, component counts, coefficients, input vectors and histories of the new operator", "why_tests_cant": "The claim is an identity between products of matrices of any size in any dimension; the tests look at one mass and one Laplace operator in two dimensions and compare a residual.", "anchors": ["interface/ceed-preconditioning.c: CeedOperatorCreateFDMElementInverse, CeedBuildMassLaplace", "interface/ceed-basis.c: CeedSimultaneousDiagonalization", "include/ceed/jit-source/gallery/ceed-scale.h"]}
{"id": "C68", "title": "Gauss and Lobatto quadrature rules are symmetric and integrate polynomials exactly", "statement": "CeedGaussQuadrature(Q) stores Q points and weights, and CeedLobattoQuadrature(Q) stores Q points with the end points -1 and 1, so that the weighted sum of the values of a polynomial at the points is its integral over [-1, 1] for every polynomial of degree at most 2Q-1 (Gauss) or 2Q-3 (Lobatto). Points and weights are symmetric about zero, the points are Newton iterates for the zeros of the Legendre polynomial, taken up to the first residual within the tolerance, and nothing outside the first Q entries is written. A Q for which there is no rule is rejected.", "quantifier": "all numbers of points, polynomials within the degree, initial guesses and tolerances", "why_tests_cant": "Tests integrate a few polynomials with a few numbers of points; the claim is about every polynomial of a degree that grows with Q, and rests on orthogonality of Legendre polynomials.", "anchors": ["interface/ceed-basis.c: CeedGaussQuadrature, CeedLobattoQuadrature"]}
{"id": "C69", "title": "The diagonal of an operator at points is assembled as the diagonal of its action", "statement": "CeedOperatorLinearAssembleAddDiagonal on an operator whose quadrature points differ from element to element (CeedOperatorCreateAtPoints) adds to every entry t of the given vector the entry t of what the operator makes of the unit vector t, and CeedOperatorLinearAssembleDiagonal stores it. This holds after any history of applications and assemblies, failed calls included, and whatever the number of points per element. No other vector of the user changes, and later applications are unaffected by the assembly. An operator whose active input and output differ in length is refused.", "quantifier": "all meshes, numbers of points per element, fields, bases, linear QFunctions, vectors and histories of calls", "why_tests_cant": "Tests assemble one or two mass matrices on small meshes; the claim is about every operator and about the unit vectors and stale values that earlier calls leave in the work arrays.", "anchors": ["backends/ref/ceed-ref-operator.c: CeedOperatorLinearAssembleAddDiagonalAtPoints_Ref, CeedOperatorInputBasisAtPoints_Ref, CeedOperatorOutputBasisAtPoints_Ref", "interface/ceed-preconditioning.c: CeedOperatorLinearAssembleDiagonal, CeedOperatorLinearAssembleAddDiagonal"]}
{"id": "C70", "title": "Matrices assembled on a GPU are the matrices of the operators, on every schedule", "statement": "CeedOperatorLinearAssemble on a CUDA or HIP device fills values so that, with the coordinates from CeedOperatorLinearAssembleSymbolic, every entry of the matrix of the operator is the sum of the values at its coordinates. This holds on every schedule of the threads: no two threads race, no thread reads or writes outside its arrays, all threads end, and entries of values that belong to other sub-operators are left alone. The values are those the CPU computes from the same assembled QFunction. Operators with several bases for the active inputs or outputs, and elements too large for a thread block, are rejected.", "quantifier": "all operators, meshes, orientations of restrictions, numbers of components, bases, assembled QFunctions, offsets, and schedules of the threads", "why_tests_cant": "A run on a GPU shows one schedule on one card; the claim is about all interleavings of the threads between barriers and about elements of every size, where the number of threads for each element changes.", "anchors": ["include/ceed/jit-source/cuda/cuda-ref-operator-assemble.h: LinearAssemble", "backends/cuda-ref/ceed-cuda-ref-operator.c: CeedSingleOperatorAssemble_Cuda, CeedSingleOperatorAssembleSetup_Cuda", "include/ceed/jit-source/hip/hip-ref-operator-assemble.h: LinearAssemble"]}
{"id": "C71", "title": "Diagonals assembled on a GPU are the diagonals of the operators, on every schedule", "statement": "CeedOperatorLinearAssembleAddDiagonal and CeedOperatorLinearAssembleAddPointBlockDiagonal on a CUDA or HIP device add the diagonal, or the blocks of the nodes, of the matrix of the operator to the vector and change nothing else. This holds on every schedule of the threads of the kernel that computes the diagonals of the elements and of the kernel that adds them to the vector: no two threads race, no thread reads or writes outside its arrays, and all threads end. Operators with several bases on one side, with different restrictions for inputs and outputs, or with elements too large for a thread block are rejected.", "quantifier": "all operators, meshes, numbers of components, bases, assembled QFunctions, contents of the vector, and schedules of the threads of both kernels", "why_tests_cant": "A run on a GPU shows one schedule on one card, and compares with values that the same operator computes; the claim is about all interleavings and about every combination of evaluation modes, where the position in the tables of the bases depends on the modes before.", "anchors": ["include/ceed/jit-source/cuda/cuda-ref-operator-assemble-diagonal.h: LinearDiagonal", "backends/cuda-ref/ceed-cuda-ref-operator.c: CeedOperatorAssembleDiagonalCore_Cuda, CeedOperatorAssembleDiagonalSetup_Cuda, CeedOperatorAssembleDiagonalSetupCompile_Cuda", "include/ceed/jit-source/hip/hip-ref-operator-assemble-diagonal.h: LinearDiagonal"]}
{"id": "C72", "title": "The QFunction assembled on backends that work on blocks of elements is that of the reference backend", "statement": "CeedOperatorLinearAssembleQFunction and CeedOperatorLinearAssembleQFunctionBuildOrUpdate on /cpu/self/opt and the backends built on it (avx, xsmm), and on /cpu/self/ref/blocked, return, for each element and quadrature point, the values of the QFunction on unit active inputs with the passive inputs as the vectors are at the time of the call. The result does not depend on the block size, on whether it divides the number of elements, or on what was applied or assembled before, and equals that of the reference backend. Assembly changes no vector and does not disturb later applications; with reuse the stored result is returned until an update is requested.", "quantifier": "all operators with QFunctions that act point by point, all block sizes and numbers of elements, all contents of the vectors, all histories of applications, assemblies, failing calls and changes of vectors", "why_tests_cant": "Tests assemble once, after setup, with one block size and mostly with meshes that fill the blocks; they do not alternate applications and assemblies, and they do not use two active inputs without basis on one restriction.", "anchors": ["backends/opt/ceed-opt-operator.c: CeedOperatorLinearAssembleQFunctionCore_Opt, CeedOperatorLinearAssembleQFunction_Opt, CeedOperatorLinearAssembleQFunctionUpdate_Opt, CeedOperatorInputBasis_Opt, CeedOperatorSetupInputs_Opt", "backends/blocked/ceed-blocked-operator.c: CeedOperatorLinearAssembleQFunctionCore_Blocked, CeedOperatorLinearAssembleQFunction_Blocked, CeedOperatorLinearAssembleQFunctionUpdate_Blocked, CeedOperatorInputBasis_Blocked", "interface/ceed-preconditioning.c: CeedOperatorLinearAssembleQFunctionBuildOrUpdate"]}
{"id": "C73", "title": "QFunction assembly on a GPU gives the values of the QFunction on unit inputs", "statement": "CeedOperatorLinearAssembleQFunction and CeedOperatorLinearAssembleQFunctionBuildOrUpdate on /gpu/cuda/ref (and the HIP backend with the same code) return a vector that holds, at the positions given by its restriction, the values of the QFunction on all unit active inputs at all points, with the passive inputs as the vectors are at the time of the call. The result does not depend on the schedule of the kernels or on what was applied or assembled before, and has the values of the reference backend of the host. Assembly changes no vector, does not disturb later applications, and never uses memory that has been freed; with reuse the stored vector is returned until an update is requested. The matrix and the diagonal assembled on the device from this vector are those of the operator.", "quantifier": "all operators, all devices and schedules, all contents of the vectors, all histories of applications, assemblies, updates and changes of vectors", "why_tests_cant": "Tests assemble once after setup on one device, or alternate assembly and application of operators with few active components; stale values need three active components with an application between two assemblies, the dangling pointer needs an active input without basis.", "anchors": ["backends/cuda-ref/ceed-cuda-ref-operator.c: CeedOperatorLinearAssembleQFunctionCore_Cuda, CeedOperatorLinearAssembleQFunction_Cuda, CeedOperatorLinearAssembleQFunctionUpdate_Cuda, CeedOperatorInputRestrict_Cuda, CeedOperatorInputBasis_Cuda, CeedOperatorInputRestore_Cuda", "backends/cuda/ceed-cuda-common.c: CeedSetDeviceGenericArray_Cuda", "interface/ceed-preconditioning.c: CeedOperatorLinearAssembleQFunctionBuildOrUpdate"]}
{"id": "C74", "title": "Restrictions, their copies and lent arrays live exactly as long as they are needed", "statement": "Whatever restrictions, references, unsigned and unoriented copies are made and released, and whatever offsets and orientations are borrowed and given back, in any order: a restriction or copy to which the user holds a reference works with the arrays it was created with; an array borrowed with CeedElemRestrictionGetOffsets, GetOrientations or GetCurlOrientations stays readable and unchanged until it is given back, also when the restriction it was borrowed through is destroyed before; destruction is refused only if the last reference would go while an array is borrowed, and can be repeated after the array was given back; when the user has released everything, all memory has been released, once.", "quantifier": "every history of creations, copies, reference copies, borrowings, returns and destructions, over any number of restrictions", "why_tests_cant": "histories and sharing between originals and copies are unbounded; tests make one copy of an original, borrow no array meanwhile and destroy in one order.", "anchors": ["interface/ceed-elemrestriction.c: CeedElemRestrictionCreateUnsignedCopy, CeedElemRestrictionCreateUnorientedCopy, CeedElemRestrictionReferenceCopy, CeedElemRestrictionDestroy, CeedElemRestrictionGetOffsets, CeedElemRestrictionRestoreOffsets, CeedElemRestrictionGetOrientations, CeedElemRestrictionRestoreOrientations, CeedElemRestrictionGetCurlOrientations, CeedElemRestrictionRestoreCurlOrientations", "backends/ref/ceed-ref-restriction.c: CeedElemRestrictionGetOffsets_Ref, CeedElemRestrictionGetOrientations_Ref, CeedElemRestrictionGetCurlOrientations_Ref, CeedElemRestrictionDestroy_Ref"]}
{"id": "C75", "title": "Fallback operators are faithful copies", "statement": "When a backend cannot do what is asked of an operator, the library does it on a fallback operator of another backend. Whatever ready operator it is made from, the fallback has the same QFunction fields, user function and context, the same restriction, basis and vector for every field, and computes the same result; it is made once and given again at every later request; an operator that is not ready gets an error and no fallback; a composite operator gets the composite of the fallbacks of its suboperators.", "quantifier": "every history of an operator, every QFunction, restriction, basis and vector, every list of suboperators", "why_tests_cant": "the copy runs through the public calls again, in another order, on operators of any shape; tests compare results of a few operators on the backends at hand.", "anchors": ["interface/ceed-preconditioning.c: CeedQFunctionCreateFallback, CeedOperatorCreateFallback, CeedOperatorGetFallback", "interface/ceed.c: CeedGetOperatorFallbackCeed"]}
{"id": "C76", "title": "QFunction contexts with copies on the host and on a GPU stay coherent", "statement": "The data of a QFunction context can be on the host, on the device, or on both. Whatever calls are made, in whatever order: no access is undefined; all valid copies contain the same values, namely those last set, written or changed through a field, on whichever side; a pointer that is handed out leads to the memory asked for and to these values; access for writing leaves one valid copy; arrays that are read stay as they are; arrays lent come back with the present values; a failing call leaves the values as they are; and destroying the context frees every array the library has to free.", "quantifier": "every history of calls on the context and of writes by the program on both memories, every size and contents", "why_tests_cant": "which copies are valid and which arrays are kept depends on the whole history; tests run short sequences, and sizes never change in them.", "anchors": ["backends/cuda-ref/ceed-cuda-ref-qfunctioncontext.c: all functions", "backends/hip-ref/ceed-hip-ref-qfunctioncontext.c: all functions", "interface/ceed-qfunctioncontext.c: CeedQFunctionContextSetData, CeedQFunctionContextTakeData, CeedQFunctionContextGetData, CeedQFunctionContextGetDataRead, CeedQFunctionContextRestoreData, CeedQFunctionContextRestoreDataRead, CeedQFunctionContextSetGeneric, CeedQFunctionContextDestroy"]}
{"id": "C77", "title": "QFunction contexts of the checking backend behave as documented and report changes of read-only data", "statement": "With the backend that checks memory accesses, whatever calls are made, in whatever order: no access is undefined; the context holds the values last set, written or changed through a field; a program is granted access to an array with these values; what it writes becomes the data when, and only when, it gives access for writing back, and a lent array then contains it too; writing to an array granted for reading never changes the data, and is reported when the last reader gives its access back, and nothing is reported otherwise; a failing call leaves the values as they are; a data destroy function is called once with the array of the program and the present values; and destroying the context frees every array the library has to free.", "quantifier": "every history of calls on the context and of right or wrong writes by the program, every size and contents, every number of readers", "why_tests_cant": "whether a change is reported depends on who wrote when to which copy; tests run one reader and one change.", "anchors": ["backends/memcheck/ceed-memcheck-qfunctioncontext.c: all functions", "interface/ceed-qfunctioncontext.c: CeedQFunctionContextSetData, CeedQFunctionContextTakeData, CeedQFunctionContextGetData, CeedQFunctionContextGetDataRead, CeedQFunctionContextRestoreData, CeedQFunctionContextRestoreDataRead, CeedQFunctionContextSetGeneric, CeedQFunctionContextSetDataDestroy, CeedQFunctionContextDestroy"]}
{"id": "C78", "title": "QFunction application of the checking backend applies the user function and reports unset outputs and changed inputs", "statement": "With the backend that checks memory accesses, applying a QFunction gives the user function the values of the inputs and the data of the context; if the user function leaves alone what it should only read and sets every entry of the outputs, the outputs then hold what it has written, whatever they held before, no other vector changes, the context changes only if the QFunction may write to it, and all access is given back; if it leaves an entry of an output unset, or changes an input or a context that it should only read, an error is reported.", "quantifier": "every user function, number of points, number, sizes and contents of inputs and outputs, use of one vector for several inputs, context", "why_tests_cant": "a user function is a function of all its inputs; tests run a few correct ones, and never one that breaks the rules at one entry.", "anchors": ["backends/memcheck/ceed-memcheck-qfunction.c: CeedQFunctionApply_Memcheck", "interface/ceed-qfunction.c: CeedQFunctionApply, CeedQFunctionGetContextData, CeedQFunctionRestoreContextData"]}
{"id": "C79", "title": "The assembled QFunction of an operator at points holds its values on all unit inputs", "statement": "CeedOperatorLinearAssembleQFunction for an operator at points stores, for every element, component of an active input, component of an active output and point, the value of the QFunction when that input component is one at all points and all other active components are zero, with the passive inputs as in an application; for a QFunction linear in its active inputs, multiplying these values with any active inputs gives its outputs; updating an array assembled before does the same; no vector of the program changes; operators with an active field at points are refused.", "quantifier": "every operator at points, QFunction, mesh, number of points per element, passive data, history of assemblies and of changes of passive data", "why_tests_cant": "the values depend on all points of all elements, and on what earlier calls left in the work vectors; tests assemble a few mass and diffusion operators with the active input first.", "anchors": ["backends/ref/ceed-ref-operator.c: CeedOperatorLinearAssembleQFunctionAtPointsCore_Ref, CeedOperatorLinearAssembleQFunctionAtPoints_Ref, CeedOperatorLinearAssembleQFunctionAtPointsUpdate_Ref"]}
{"id": "C80", "title": "Reported layouts say where the data is, and compatible at-points restrictions have the same points", "statement": "The E-vector layout a restriction reports gives, for every node, component and element, the position where applying the restriction puts or reads the data; a strided restriction also reports the layout of its L-vector; other restrictions report an error. The vectors a restriction creates have the lengths it asks for. Two at-points restrictions are reported compatible exactly when they have the same points in every element. The E-vector of an at-points restriction can only be made longer, which does not change what it gathers.", "quantifier": "every restriction made by any creation function, all sizes, strides, offsets and vectors; all pairs of at-points restrictions", "why_tests_cant": "layouts are used by backends that address the vectors directly; tests look at one layout of one restriction, and cannot compare the reported positions with the ones used for all sizes.", "anchors": ["interface/ceed-elemrestriction.c: CeedElemRestrictionGetELayout, CeedElemRestrictionGetLLayout, CeedElemRestrictionGetStrides, CeedElemRestrictionAtPointsAreCompatible, CeedElemRestrictionGetNumPoints, CeedElemRestrictionSetAtPointsEVectorSize, CeedElemRestrictionCreateVector", "backends/ref/ceed-ref-restriction.c: CeedElemRestrictionCreate_Ref"]}
{"id": "C81", "title": "Questions about an operator are answered from its fields", "statement": "The active basis (restriction) an operator reports is the one all its active inputs (outputs) share, and the caller gets exactly one reference to it; if there are several the call is an error, if there is none the operator is reported as incomplete. The operator has tensor bases exactly when every field with a basis has a tensor product basis. A field asked for by name is the first input, else the first output, with this name, a sub-operator the first with this name; when there is none the null pointer is returned. No call leaves behind references the caller does not know of.", "quantifier": "every operator with any number of fields, any sharing of bases and restrictions among them, any names, any combination of pointers asked for, any reference counts before the call", "why_tests_cant": "tests ask operators with one basis; which basis is reported, and whether counts are kept, depends on all fields and on the error paths.", "anchors": ["interface/ceed-operator.c: CeedOperatorGetActiveBases, CeedOperatorGetActiveElemRestrictions, CeedOperatorHasTensorBases, CeedOperatorGetFieldByName, CeedCompositeOperatorGetSubByName, CeedOperatorGetFields, CeedOperatorCheckReady"]}
{"id": "C82", "title": "Source directories and compiler defines reach everyone who compiles", "statement": "What a user adds as JiT source root (define), through a Ceed or any of its delegates, is appended to one list of source roots (defines), and asking through any of them gives all strings added, in order. A list handed out does not change until it is given back; asking and giving back changes nothing. The fallback of a Ceed for operators has the source roots and the defines of the Ceed. A Ceed whose lists are handed out is not destroyed. No call leaves behind references nobody knows of.", "quantifier": "every set of Ceeds, every depth of delegation, any strings and any number of them, any state of the two lists", "why_tests_cant": "kernels are compiled with the lists only on GPUs; tests add one root to one Ceed, and no test adds defines to a Ceed that later needs a fallback.", "anchors": ["interface/ceed.c: CeedAddJitSourceRoot, CeedAddJitDefine, CeedGetJitSourceRoots, CeedRestoreJitSourceRoots, CeedGetJitDefines, CeedRestoreJitDefines, CeedGetOperatorFallbackCeed, CeedGetParent, CeedDestroy"]}
