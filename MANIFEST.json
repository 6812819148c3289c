{
 "claims": [
  {
   "property": "C01",
   "status": "proved",
   "theorems": [
    "Verif.Vector.C01_exclusive",
    "Verif.Vector.C01_write_refused",
    "Verif.Vector.C01_read_refused"
   ],
   "note": "Over every history of modelled calls on any number of vectors, failing calls included."
  },
  {
   "property": "C02",
   "status": "proved",
   "theorems": [
    "Verif.Vector.C02_state"
   ],
   "note": "Histories in which the program writes to an array only under a granted write access (Legal)."
  },
  {
   "property": "C03",
   "status": "partial",
   "theorems": [
    "Verif.Vector.C03_one_operand_partial",
    "Verif.Vector.C03_axpy_partial",
    "Verif.Vector.C03_axpby_partial",
    "Verif.Vector.C03_pointwiseMult_partial",
    "Verif.Vector.C03_copy_partial",
    "Verif.Vector.C03_copyStrided_partial",
    "Verif.Vector.C03_copy_self_witness",
    "Verif.Vector.C03_axpy_witness",
    "Verif.Vector.C03_axpby_witness",
    "Verif.Vector.C03_pointwiseMult_witness",
    "Verif.Vector.C03_copyStrided_self_witness",
    "Verif.Vector.C03_getArrayWrite_witness",
    "Verif.Vector.C03_destroy_witness"
   ],
   "note": "Proved for calls with one operand and, under conditions on the second operand, for the others; the general claim is false: Copy/CopyStrided/AXPY/AXPBY/PointwiseMult leave the first operand locked when access to a later one fails, GetArrayWrite and Destroy also change state before failing (witnesses)."
  },
  {
   "property": "C04",
   "status": "proved",
   "theorems": [
    "Verif.Vector.C04_balanced",
    "Verif.Vector.C04_no_destroy_with_access"
   ],
   "note": ""
  },
  {
   "property": "C05",
   "status": "partial",
   "theorems": [
    "Verif.Vector.C05_defined",
    "Verif.Vector.C05_lent_not_freed",
    "Verif.Vector.C05_one_owner",
    "Verif.Vector.C05_own",
    "Verif.Vector.C05_freed_at_destroy",
    "Verif.Vector.C05_no_leak",
    "Verif.Vector.C05_empty_leak_witness",
    "Verif.Vector.C05_own_twice_witness"
   ],
   "note": "Proved for legal programs on nonempty vectors; false for empty vectors (the array handed over is leaked) and when the same pointer is handed over twice (witnesses)."
  },
  {
   "property": "C06",
   "status": "partial",
   "theorems": [
    "Verif.Vector.C06_take_iff",
    "Verif.Vector.C06_take_result",
    "Verif.Vector.C06_empty_witness"
   ],
   "note": "Proved for nonempty vectors; on an empty vector TakeArray succeeds without a lent array (witness)."
  },
  {
   "property": "C07",
   "status": "proved",
   "theorems": [
    "Verif.Vector.C07_scale",
    "Verif.Vector.C07_reciprocal",
    "Verif.Vector.C07_setValue",
    "Verif.Vector.C07_axpy",
    "Verif.Vector.C07_axpby",
    "Verif.Vector.C07_pointwiseMult"
   ],
   "note": "Success of the call is part of the conclusion. Lengths must be nonnegative."
  },
  {
   "property": "C08",
   "status": "proved",
   "theorems": [
    "Verif.Vector.C08_norm",
    "Verif.Vector.C08_positive",
    "Verif.Vector.C08_scaling"
   ],
   "note": "Over the reals with the real square root; floating point rounding is not modelled."
  },
  {
   "property": "C09",
   "status": "partial",
   "theorems": [
    "Verif.Vector.C09_setValueStrided_partial",
    "Verif.Vector.C09_copyStrided_partial",
    "Verif.Vector.C09_negative_start_witness",
    "Verif.Vector.C09_zero_step_witness"
   ],
   "note": "Proved for start >= 0 and step > 0; the calls accept a negative start and a zero step and then leave the array or loop forever (witnesses)."
  },
  {
   "property": "C10",
   "status": "proved",
   "theorems": [
    "Verif.RefCount.C10_defined",
    "Verif.RefCount.C10_alive_iff",
    "Verif.RefCount.C10_count",
    "Verif.RefCount.C10_once",
    "Verif.RefCount.C10_no_leak",
    "Verif.RefCount.C10_cycle_witness",
    "Verif.RefCount.C10_field_twice_witness"
   ],
   "note": "For any number of objects, handle variables and references between objects (ReferenceCopy, Destroy, Create, SetField, AddSub, SetContext, Get*). Correct use is assumed: results go to empty variables, no operator is made a sub-operator of itself, no field is set twice; the witnesses show the leak otherwise. Calls that fail because an access is outstanding are not part of these histories; for restrictions they are, with unsigned and unoriented copies, in C74."
  },
  {
   "property": "C11",
   "status": "proved",
   "theorems": [
    "Verif.Restriction.C11_apply_gathers",
    "Verif.Restriction.C11_standard",
    "Verif.Restriction.C11_oriented",
    "Verif.Restriction.C11_curl_oriented",
    "Verif.Restriction.C11_strided",
    "Verif.Restriction.C11_strided_backend"
   ],
   "note": "All eight creation functions, all variants; the hypotheses are the documented conditions on the arrays. Curl oriented elements need two nodes (see C13_curl_one_node_witness)."
  },
  {
   "property": "C12",
   "status": "proved",
   "theorems": [
    "Verif.Restriction.C12_transpose_accumulates",
    "Verif.Restriction.C12_transpose_is_adjoint",
    "Verif.Restriction.C12_transpose_is_adjoint_plain"
   ],
   "note": "Adjointness and accumulation for all creation functions."
  },
  {
   "property": "C13",
   "status": "partial",
   "theorems": [
    "Verif.Restriction.C13_apply_safe",
    "Verif.Restriction.C13_create_checks_offsets",
    "Verif.Restriction.C13_create_then_apply_safe",
    "Verif.Restriction.C13_backend_strides_safe",
    "Verif.Restriction.C13_blocked_check_incomplete_witness",
    "Verif.Restriction.C13_strides_unchecked_witness",
    "Verif.Restriction.C13_curl_one_node_witness",
    "Verif.Restriction.C13_blocked_oriented_negative_witness",
    "Verif.Restriction.C13_blocked_zero_block_size_witness",
    "Verif.Restriction.C13_blocked_safe_partial"
   ],
   "note": "Proved under the documented conditions on the arrays and unconditionally where the reference backends check; the unconditional claim is false, see the witnesses."
  },
  {
   "property": "C14",
   "status": "proved",
   "theorems": [
    "Verif.Restriction.C14_blocked_gather",
    "Verif.Restriction.C14_blocked_scatter",
    "Verif.Restriction.C14_blocked_strided_gather",
    "Verif.Restriction.C14_blocked_strided_scatter"
   ],
   "note": ""
  },
  {
   "property": "C15",
   "status": "partial",
   "theorems": [
    "Verif.Restriction.C15_block_gather",
    "Verif.Restriction.C15_block_scatter",
    "Verif.Restriction.C15_block_rejected_partial",
    "Verif.Restriction.C15_block_off_by_one_witness",
    "Verif.Restriction.C15_block_negative_witness"
   ],
   "note": "Agreement proved; rejection of out-of-range block numbers is false at num_block and for negative numbers, see the witnesses."
  },
  {
   "property": "C16",
   "status": "partial",
   "theorems": [
    "Verif.Restriction.C16_multiplicity_partial",
    "Verif.Restriction.C16_multiplicity_strided",
    "Verif.Restriction.C16_multiplicity_blocked",
    "Verif.Restriction.C16_curl_witness"
   ],
   "note": "Proved for standard, oriented, strided and blocked restrictions; false for curl oriented restrictions (witness)."
  },
  {
   "property": "C17",
   "status": "proved",
   "theorems": [
    "Verif.Restriction.C17_specialised_kernels"
   ],
   "note": ""
  },
  {
   "property": "C18",
   "status": "proved",
   "theorems": [
    "Verif.Restriction.C18_standard",
    "Verif.Restriction.C18_strided",
    "Verif.Restriction.C18_unsigned",
    "Verif.Restriction.C18_unoriented",
    "Verif.Restriction.C18_blocked_unsigned",
    "Verif.Restriction.C18_blocked_unoriented"
   ],
   "note": ""
  },
  {
   "property": "C19",
   "status": "proved",
   "theorems": [
    "Verif.Restriction.C19_num_points",
    "Verif.Restriction.C19_min_max_points",
    "Verif.Restriction.C19_element_offset",
    "Verif.Restriction.C19_element_gather",
    "Verif.Restriction.C19_element_scatter",
    "Verif.Restriction.C19_gather",
    "Verif.Restriction.C19_scatter",
    "Verif.Restriction.C19_evector_size",
    "Verif.Restriction.C19_no_elements_witness",
    "Verif.Restriction.C19_unchecked_point_witness"
   ],
   "note": "Under the documented layout of the offsets array (PointsOK) and at least one element; without elements creation reads before the array (witness). The library never checks the points (witness)."
  },
  {
   "property": "C20",
   "status": "proved",
   "theorems": [
    "Verif.Basis.C20_formula",
    "Verif.Basis.C20_opt_eq_ref",
    "Verif.Basis.C20_linear",
    "Verif.Basis.C20_adjoint",
    "Verif.Basis.C20_strided",
    "Verif.Basis.C20_strided_transpose_partial",
    "Verif.Basis.C20_strided_transpose_overwrites_witness"
   ],
   "note": "Reference and optimised contraction; also the strided contraction, whose transpose mode without add keeps only the last part (witness)."
  },
  {
   "property": "C21",
   "status": "partial",
   "theorems": [
    "Verif.Basis.C21_interp_partial",
    "Verif.Basis.C21_nontensor",
    "Verif.Basis.C21_tolerance_witness"
   ],
   "note": "All dimensions and sizes, both transpose modes, non-tensor bases too. Condition: the collocation test accepted only an exact identity (the code tolerates 1e-14; C21_tolerance_witness)."
  },
  {
   "property": "C22",
   "status": "partial",
   "theorems": [
    "Verif.Basis.C22_creation_partial",
    "Verif.Basis.C22_grad_partial"
   ],
   "note": "Gradients of tensor bases in both modes, with the collocated gradient proved right at creation for interpolation matrices with independent columns (C22_creation_partial, with C27_collocated). Partial: independence is needed because the code divides by zero otherwise; exact arithmetic."
  },
  {
   "property": "C23",
   "status": "partial",
   "theorems": [
    "Verif.Basis.C23_adjoint_tensor",
    "Verif.Basis.C23_adjoint_nontensor",
    "Verif.Basis.C23_applyAdd_tensor_partial",
    "Verif.Basis.C23_applyAdd_nontensor",
    "Verif.Basis.C23_applyAdd_noTranspose",
    "Verif.Basis.C23_applyAdd_interp_overwrites_witness",
    "Verif.Basis.C23_applyAdd_grad_overwrites_witness"
   ],
   "note": "Adjointness for all modes. ApplyAdd accumulates except for tensor bases with collocated points, where it overwrites (two witnesses)."
  },
  {
   "property": "C24",
   "status": "proved",
   "theorems": [
    "Verif.Basis.C24_weight_tensor",
    "Verif.Basis.C24_weight_nontensor",
    "Verif.Basis.C24_weight_transpose"
   ],
   "note": "At least one element for tensor bases; for zero elements see C28_weight_no_elements_witness."
  },
  {
   "property": "C25",
   "status": "partial",
   "theorems": [
    "Verif.Basis.C25_lagrange",
    "Verif.Basis.C25_reproduces_partial",
    "Verif.Basis.C25_accepts",
    "Verif.Basis.C25_weight",
    "Verif.Basis.C25_no_points_fresh",
    "Verif.Basis.C25_no_points_witness",
    "Verif.Basis.C25_one_point_witness",
    "Verif.Basis.C25_fresh",
    "Verif.Basis.C25_more_nodes_witness",
    "Verif.Basis.C25_short_output_witness",
    "Verif.Basis.C25_shapes_exist",
    "Verif.Basis.C25_evaluates_partial",
    "Verif.Basis.C25_transpose_partial",
    "Verif.Basis.C25_add_partial",
    "Verif.Basis.C25_adjoint_partial"
   ],
   "note": "C25_evaluates_partial, C25_transpose_partial, C25_add_partial, C25_adjoint_partial: for every tensor basis with distinct quadrature points (two at least per direction) and after every history of calls, the values and derivatives at the points are those of the unique polynomial of degree below Q_1d per coordinate with the interpolated values at the quadrature points; the transpose is the adjoint, for one point at least. C25_lagrange, C25_reproduces_partial: for a Lagrange basis with no more nodes than quadrature points that is the polynomial with the given node values. C25_fresh: such bases are made by the library's own tables. Proved to fail: C25_no_points_witness against C25_no_points_fresh (with no points the transpose stores what an earlier call left), C25_more_nodes_witness (more nodes than quadrature points: not the interpolating polynomial), C25_one_point_witness (one quadrature point per direction: write out of bounds), C25_short_output_witness (output too short is accepted and overrun). Exact arithmetic; CPU path of the interface."
  },
  {
   "property": "C26",
   "status": "partial",
   "theorems": [
    "Verif.Basis.C26_tables",
    "Verif.Basis.C26_reproduces",
    "Verif.Basis.C26_create",
    "Verif.Basis.C26_created_partial",
    "Verif.Basis.C26_nothing_witness",
    "Verif.Basis.C26_independent",
    "Verif.Basis.C26_usable_partial"
   ],
   "note": "Over any field and for any distinct nodes, the 1D tables built by CeedBasisCreateTensorH1Lagrange's Fornberg recurrence are the values and derivatives of the cardinal polynomials, hence reproduce every polynomial of degree below P (C26_tables, C26_reproduces), and creation gives the basis with these tables (C26_create, C26_created_partial). Disagreement: for P = 1, and for a one-point Gauss-Lobatto rule, creation reports success without creating a basis (C26_nothing_witness). The Newton iterations that find the nodes are parameters, not modelled."
  },
  {
   "property": "C27",
   "status": "proved",
   "theorems": [
    "Verif.Basis.C27_rejects",
    "Verif.Basis.C27_qr",
    "Verif.Basis.C27_pseudoinverse",
    "Verif.Basis.C27_least_squares",
    "Verif.Basis.C27_matmul",
    "Verif.Basis.C27_collocated",
    "Verif.Basis.C27_singular_witness"
   ],
   "note": "Over any ordered field with square roots (the reals among them), in exact arithmetic with division by zero a distinct failure: C27_qr (factorisation, orthogonality, application of Q and its transpose with any strides), C27_pseudoinverse (Moore-Penrose, hence left inverse), C27_least_squares, C27_rejects, C27_matmul, C27_collocated. Dependent columns are outside the claim; a zero column divides zero by zero (C27_singular_witness). Rounding and n = 0 are not modelled."
  },
  {
   "property": "C28",
   "status": "partial",
   "theorems": [
    "Verif.Basis.C28_tensor_partial",
    "Verif.Basis.C28_nontensor_partial",
    "Verif.Basis.C28_null_matrix_witness",
    "Verif.Basis.C28_weight_no_elements_witness"
   ],
   "note": "CeedBasisApply/ApplyAdd of the reference backend; false for modes whose matrix is null and for weights on zero elements (witnesses). Application at points is not covered yet."
  },
  {
   "property": "C29",
   "status": "proved",
   "theorems": [
    "Verif.Context.C29_retrieve",
    "Verif.Context.C29_duplicate",
    "Verif.Context.C29_new",
    "Verif.Context.C29_all",
    "Verif.Context.C29_kept",
    "Verif.Context.C29_null_description_witness"
   ],
   "note": "For every history of calls, legal or not. A NULL description, which the documentation allows, is undefined (C29_null_description_witness)."
  },
  {
   "property": "C30",
   "status": "proved",
   "theorems": [
    "Verif.Context.C30_set_get",
    "Verif.Context.C30_disjoint",
    "Verif.Context.C30_type_mismatch",
    "Verif.Context.C30_succeeds",
    "Verif.Context.C30_outside_witness"
   ],
   "note": "For fields inside the data and histories that obey the documented rules; registering a field outside the data is not rejected (C30_outside_witness)."
  },
  {
   "property": "C31",
   "status": "partial",
   "theorems": [
    "Verif.Context.C31_bump",
    "Verif.Context.C31_monotone",
    "Verif.Context.C31_equal_partial",
    "Verif.Context.C31_device_witness",
    "Verif.Context.C31_take_witness"
   ],
   "note": "Bump and monotonicity are complete. Equal states imply equal contents for histories without requests for device memory and moments at which the data can be read; C31_device_witness and C31_take_witness show the code violates the rest."
  },
  {
   "property": "C32",
   "status": "partial",
   "theorems": [
    "Verif.Context.C32_exclusive",
    "Verif.Context.C32_write_iff",
    "Verif.Context.C32_read_iff",
    "Verif.Context.C32_defined",
    "Verif.Context.C32_valid_partial",
    "Verif.Context.C32_stable_partial",
    "Verif.Context.C32_set_witness",
    "Verif.Context.C32_destroy_witness",
    "Verif.Context.C32_take_witness"
   ],
   "note": "Exclusivity for every history. Validity of read pointers for histories that do not replace, take or destroy data being read: the code does not reject those (C32_set_witness, C32_take_witness, C32_destroy_witness)."
  },
  {
   "property": "C33",
   "status": "proved",
   "theorems": [
    "Verif.Ceed.C33_select",
    "Verif.Ceed.C33_select_plain",
    "Verif.Ceed.C33_fails",
    "Verif.Ceed.C33_order",
    "Verif.Ceed.C33_help",
    "Verif.Ceed.C33_null",
    "Verif.Ceed.C33_defined",
    "Verif.Ceed.C33_help_witness",
    "Verif.Ceed.C33_empty_witness",
    "Verif.Ceed.C33_colon_witness",
    "Verif.Ceed.C33_register",
    "Verif.Ceed.C33_full_witness",
    "Verif.Ceed.C33_register_keeps",
    "Verif.Ceed.C33_resource_root"
   ],
   "note": "For every table and resource. Disagreements with the documentation, each with a witness: a prefix with a colon can hide a full match, the bare word help and an empty table are undefined, a full table drops registrations silently."
  },
  {
   "property": "C34",
   "status": "partial",
   "theorems": [
    "Verif.Ceed.C34_parent_witness",
    "Verif.Ceed.C34_fallback_delegate_witness",
    "Verif.Ceed.C34_handler_witness",
    "Verif.Ceed.C34_dangling_witness",
    "Verif.Ceed.C34_root",
    "Verif.Ceed.C34_same_root",
    "Verif.Ceed.C34_error",
    "Verif.Ceed.C34_reset",
    "Verif.Ceed.C34_parent_partial",
    "Verif.Ceed.C34_handler"
   ],
   "note": "Root, common root, error routing, reset and parents along delegates hold for every grown tree. The parent of an operator fallback is the fallback itself (C34_parent_witness); handlers are not passed on to delegates of a fallback or to fallbacks made earlier (C34_fallback_delegate_witness, C34_handler_witness); an object outliving the root leaves a dangling parent (C34_dangling_witness)."
  },
  {
   "property": "C35",
   "status": "partial",
   "theorems": [
    "Verif.Ceed.C35_get_partial",
    "Verif.Ceed.C35_exclusive",
    "Verif.Ceed.C35_restore",
    "Verif.Ceed.C35_restore_foreign",
    "Verif.Ceed.C35_null_witness",
    "Verif.Ceed.C35_lifetime_partial",
    "Verif.Ceed.C35_pair",
    "Verif.Ceed.C35_destroy",
    "Verif.Ceed.C35_delegate_witness",
    "Verif.Ceed.C35_destroy_outstanding"
   ],
   "note": "For Ceeds that make their own vectors: complete. For Ceeds whose vectors come from a delegate the count is wrong (C35_delegate_witness); restoring before any request is undefined (C35_null_witness)."
  },
  {
   "property": "C36",
   "status": "partial",
   "theorems": [
    "Verif.QFunction.C36_unique",
    "Verif.QFunction.C36_immutable",
    "Verif.QFunction.C36_order",
    "Verif.QFunction.C36_accept",
    "Verif.QFunction.C36_refused",
    "Verif.QFunction.C36_bounds_partial",
    "Verif.QFunction.C36_room",
    "Verif.QFunction.C36_overflow_witness"
   ],
   "note": "Uniqueness of names, immutability after first use, call-order numbering, and exact acceptance conditions proved for every history. Partial: memory safety holds only for at most 16 fields of each kind; the 17th writes outside the table (C36_overflow_witness)."
  },
  {
   "property": "C37",
   "status": "partial",
   "theorems": [
    "Verif.Operator.C37_after_assembly",
    "Verif.Operator.C37_after_assembly_succeeds",
    "Verif.Operator.C37_element_size_witness",
    "Verif.Operator.C37_identity_passive_witness",
    "Verif.Operator.C37_identity_weight_witness",
    "Verif.Operator.C37_apply_add",
    "Verif.Operator.C37_apply",
    "Verif.Operator.C37_apply_alias",
    "Verif.Operator.C37_apply_add_succeeds",
    "Verif.Operator.C37_apply_succeeds"
   ],
   "note": "CeedOperatorApply and CeedOperatorApplyAdd of the reference backend, after any history of applications (including failed ones) and vector changes: a successful call computes exactly the sum over elements of E_out^T B_out^T f(B_in E_in u), for any number of fields, any QFunction and any commutative ring; after a failure-free history it succeeds if and only if the vectors hold data and are long enough, without undefined behaviour. Hypotheses are on fields only (OpOK); they hold for bases and restrictions from the creation functions (basis_ok, tensor_basis_ok, exOp_ok). Partial because the code fails outside them: witnesses for element size different from the basis, identity operators on passive vectors, and the sharing patterns of C40. At-points and blocked backends are not covered."
  },
  {
   "property": "C38",
   "status": "partial",
   "theorems": [
    "Verif.Composite.C38_nested_witness",
    "Verif.Composite.C38_apply_add",
    "Verif.Composite.C38_apply",
    "Verif.Composite.C38_order",
    "Verif.Composite.C38_apply_add_succeeds",
    "Verif.Composite.C38_apply_succeeds_partial",
    "Verif.Composite.C38_nested_fails"
   ],
   "note": "ApplyAdd: proved for composites of any depth, after all histories of all operators involved, failed calls included; independence of order and grouping. Apply: stores the sum whenever it succeeds; it succeeds for flat composites and always fails for nested ones (C38_nested_fails, C38_nested_witness)."
  },
  {
   "property": "C39",
   "status": "partial",
   "theorems": [
    "Verif.Operator.C39_assembly_history",
    "Verif.Operator.C39_error_history_witness",
    "Verif.Operator.C39_history",
    "Verif.Operator.C39_history_success_partial"
   ],
   "note": "The result of a successful application does not depend on the history, for all histories of applications (also failed ones), assemblies of the QFunction (C39_assembly_history) and changes of vectors. Success is history independent without failing calls; with them it is not (C39_error_history_witness: E-vectors stay locked after an error)."
  },
  {
   "property": "C40",
   "status": "partial",
   "theorems": [
    "Verif.Operator.C40_null_input_witness",
    "Verif.Operator.C40_null_output_witness",
    "Verif.Operator.C40_overwritten_witness",
    "Verif.Operator.C40_collocated_witness",
    "Verif.Operator.C40_sharing_partial"
   ],
   "note": "Sharing gives the same result as separate copies of the restrictions, for all sharing patterns in which the first of the sharing inputs has a basis, outputs without basis are first of their group, and CeedBasisApplyAdd accumulates. The witnesses show that the other patterns give undefined behaviour or a wrong result."
  },
  {
   "property": "C41",
   "status": "partial",
   "theorems": [
    "Verif.Operator.C41_accept",
    "Verif.Operator.C41_stored",
    "Verif.Operator.C41_consistent",
    "Verif.Operator.C41_ready_partial",
    "Verif.Operator.C41_unchangeable_partial",
    "Verif.Operator.C41_applicable",
    "Verif.Operator.C41_twice_witness",
    "Verif.Operator.C41_refused_witness",
    "Verif.Operator.C41_changed_witness"
   ],
   "note": "Exact acceptance condition of CeedOperatorSetField, consistency of all set fields after every history, and completeness at CeedOperatorCheckReady when no field is set twice; the link to OpOK shows such operators meet the hypotheses of C37/C39/C40. False for fields set twice, for refused calls on set fields and for calls after the check (witnesses). Operators at points are not modelled."
  },
  {
   "property": "C42",
   "status": "partial",
   "theorems": [
    "Verif.Composite.C42_report_partial",
    "Verif.Composite.C42_stable",
    "Verif.Composite.C42_accept_partial",
    "Verif.Composite.C42_reject",
    "Verif.Composite.C42_stale_witness",
    "Verif.Composite.C42_incompatible_witness",
    "Verif.Composite.C42_refused_witness",
    "Verif.Composite.C42_cycle_witness",
    "Verif.Composite.C42_edit",
    "Verif.Composite.C42_single_partial"
   ],
   "note": "For every history of creation, field setting, sub-operator addition and readiness checks in which composites are only extended before they are used: reported lengths are the lengths of the active fields of the leaves, they stay the same once reported, and additions are refused exactly on a conflict. False without that condition (stale, incompatible, refused and cycle witnesses)."
  },
  {
   "property": "C43",
   "status": "partial",
   "theorems": [
    "Verif.Operator.C43_columns_partial",
    "Verif.Operator.C43_columns_single",
    "Verif.Operator.C43_build_partial",
    "Verif.Operator.C43_reuse",
    "Verif.Operator.C43_update_partial",
    "Verif.Operator.C43_withdraw",
    "Verif.Operator.C43_vectors",
    "Verif.Operator.C43_succeeds",
    "Verif.Operator.C43_action",
    "Verif.Operator.C43_apply",
    "Verif.Operator.C43_layout",
    "Verif.Operator.C43_stale_witness",
    "Verif.Operator.C43_shared_witness"
   ],
   "note": "Reference backend. Assembly (LinearAssembleQFunction and BuildOrUpdate) returns the values of the QFunction on all unit inputs with the passive inputs current at the call (C43_columns_partial, C43_build_partial), for any number of fields and elements, after any history of applications and, from the first assembly on, any history of assemblies and vector changes without applications; with one active component after any history at all (C43_columns_single). For a QFunction linear in its active inputs this is its action at every point (C43_action, C43_apply), at positions that do not overlap (C43_layout). C43_succeeds decides success, C43_reuse the reuse flags. Partial because the full statement is false: an application between two assemblies leaves stale values in the first columns (C43_stale_witness), and after an application two active inputs without basis on one restriction are the same memory, so that both their columns are wrong (C43_shared_witness)."
  },
  {
   "property": "C44",
   "status": "partial",
   "theorems": [
    "Verif.Composite.C44_composite_matrix",
    "Verif.Composite.C44_composite_add_partial",
    "Verif.Composite.C44_composite_diagonal_partial",
    "Verif.Composite.C44_composite_block_partial",
    "Verif.Composite.C44_composite_block_diagonal_partial",
    "Verif.Operator.C44_curl_witness",
    "Verif.Operator.C44_repeated_witness",
    "Verif.Operator.C44_empty_witness",
    "Verif.Operator.C44_none_witness",
    "Verif.Operator.C44_adjacent_witness",
    "Verif.Operator.C44_restrictions_witness",
    "Verif.Operator.C44_strided_witness",
    "Verif.Operator.C44_stride_witness",
    "Verif.Operator.C44_matrix",
    "Verif.Operator.C44_add_partial",
    "Verif.Operator.C44_add_single_partial",
    "Verif.Operator.C44_reuse_partial",
    "Verif.Operator.C44_diagonal_partial",
    "Verif.Operator.C44_block_partial",
    "Verif.Operator.C44_block_diagonal_partial",
    "Verif.Operator.C44_succeeds",
    "Verif.Operator.C44_block_succeeds",
    "Verif.Operator.C44_rejects"
   ],
   "note": "Proved for single and composite operators (any nesting) on the default implementation, for every mesh operator whose active fields have bases, whose matching input and output share a restriction that is not curl oriented and has no repeated entry in an element (DiagOK), after any history without an application between assemblies (C43_stale_witness); reuse of the assembled QFunction, success and rejection are covered. Nine witnesses show where the code does not give the diagonal: curl oriented restrictions, repeated entries in an element, operators without elements (vector not zeroed), active fields without basis (nothing added), adjacent gradients of one basis (reads out of bounds), different restrictions with one basis, point blocks with strided restrictions or nodes beyond comp_stride. Operators at points are not modelled."
  },
  {
   "property": "C45",
   "status": "partial",
   "theorems": [
    "Verif.Composite.C45_composite_partial",
    "Verif.Composite.C45_composite_count",
    "Verif.Composite.C45_nested",
    "Verif.Operator.C45_adjacent_witness",
    "Verif.Operator.C45_short_witness",
    "Verif.Operator.C45_assemble_partial",
    "Verif.Operator.C45_assemble_single_partial",
    "Verif.Operator.C45_symbolic",
    "Verif.Operator.C45_reuse_partial",
    "Verif.Operator.C45_succeeds",
    "Verif.Operator.C45_bases_rejected"
   ],
   "note": "Coordinates and values summed are the matrix, for every operator whose hypotheses OpOK/FullOK hold and every history without applications since the passive vectors changed; number of entries = triples written; composites (one level); success and rejections. Missing: applications between assemblies (C43_stale_witness), adjacent gradients (C45_adjacent_witness, memory is read out of bounds), short values vector (C45_short_witness), nested composites are rejected (C45_nested)."
  },
  {
   "property": "C46",
   "status": "partial",
   "theorems": [
    "Verif.Operator.C46_apply",
    "Verif.Operator.C46_exact",
    "Verif.Operator.C46_coarse",
    "Verif.Operator.C46_composite",
    "Verif.Operator.C46_refused",
    "Verif.Operator.C46_errors",
    "Verif.Operator.C46_none_witness",
    "Verif.Operator.C46_passive_witness",
    "Verif.Operator.C46_created",
    "Verif.Operator.C46_transpose"
   ],
   "note": "Single operators with one active restriction that is not curl oriented: the created pair is mutually transposed as linear maps (C46_transpose) and as CeedOperatorApply computes them after any history (C46_apply); prolongation is exact interpolation on conforming functions (C46_exact); the coarse operator is the fine one with active fields replaced (C46_coarse); composites and wrong arguments are refused (C46_composite, C46_refused). False for operators whose active field has no basis (creation fails) and undefined for operators without active fields (witnesses)."
  },
  {
   "property": "C47",
   "status": "partial",
   "theorems": [
    "Verif.Flops.C47_transpose_witness",
    "Verif.Flops.C47_gradient_witness",
    "Verif.Flops.C47_curl_witness",
    "Verif.Flops.C47_points_witness",
    "Verif.Flops.C47_atpoints_witness",
    "Verif.Flops.C47_point_witness",
    "Verif.Flops.C47_same_points",
    "Verif.Flops.C47_at_points_partial",
    "Verif.Flops.C47_excess_one",
    "Verif.Flops.C47_average_points",
    "Verif.Flops.C47_points_components_witness",
    "Verif.Flops.C47_same_basis",
    "Verif.Flops.C47_interp",
    "Verif.Flops.C47_transpose_partial",
    "Verif.Flops.C47_transpose_general",
    "Verif.Flops.C47_gradient_partial",
    "Verif.Flops.C47_gradient_other",
    "Verif.Flops.C47_weight",
    "Verif.Flops.C47_nontensor_half",
    "Verif.Flops.C47_collocated",
    "Verif.Flops.C47_errors",
    "Verif.Flops.C47_same_restriction",
    "Verif.Flops.C47_gather",
    "Verif.Flops.C47_scatter",
    "Verif.Flops.C47_curl_gather",
    "Verif.Flops.C47_curl_scatter",
    "Verif.Flops.C47_points_gather",
    "Verif.Flops.C47_points_scatter",
    "Verif.Flops.C47_operator_partial",
    "Verif.Flops.C47_unset",
    "Verif.Flops.C47_empty",
    "Verif.Flops.C47_composite"
   ],
   "note": "Estimates are compared with loops of the reference backend that count multiplications and additions (the counter is proved not to change results). Exact for interpolation with tensor bases, weights, restrictions by offsets, strides and signs; sums over composite operators; missing QFunction estimates and unsupported modes are errors; at points for one component in one dimension, with the excess given in higher dimensions. The estimate is wrong for transposes and gradients when the numbers of nodes and quadrature points differ, half of the operations for other than tensor bases, zero for scattering points, an upper bound for tridiagonal transformations, not defined at points for active fields without basis, and leaves out components at points (witnesses). The transpose at points is not counted."
  },
  {
   "property": "C48",
   "status": "partial",
   "theorems": [
    "Verif.Labels.C48_late_witness",
    "Verif.Labels.C48_conflict_witness",
    "Verif.Labels.C48_nested_witness",
    "Verif.Labels.C48_context_witness",
    "Verif.Labels.C48_replaced_witness",
    "Verif.Labels.C48_set_partial",
    "Verif.Labels.C48_succeeds",
    "Verif.Labels.C48_reads",
    "Verif.Labels.C48_single",
    "Verif.Labels.C48_foreign",
    "Verif.Labels.C48_null",
    "Verif.Labels.C48_outdated",
    "Verif.Labels.C48_type",
    "Verif.Labels.C48_first",
    "Verif.Labels.C48_restore",
    "Verif.Labels.C48_same",
    "Verif.Labels.C48_stale",
    "Verif.Labels.C48_found",
    "Verif.Labels.C48_single_found",
    "Verif.Labels.C48_answers",
    "Verif.Labels.C48_add"
   ],
   "note": "Histories of any calls on any operators and contexts. Setting through a composite sets the field in every sub-operator that had it when the label was made and nowhere else, and marks assembled data outdated (C48_set_partial, C48_succeeds, C48_reads, C48_single); foreign, null, outdated and wrongly typed labels are refused without effect (C48_foreign, C48_null, C48_outdated, C48_type); reading uses the first sub-operator (C48_first, C48_restore); labels exist exactly when a sub-operator has the field, and stay (C48_found, C48_single_found, C48_answers, C48_same). Missing, with witnesses: fields registered after the label was made (C48_late_witness); conflicting types or sizes and nested composites are undefined behaviour rather than errors (C48_conflict_witness, C48_nested_witness); after AddSub only the outdated label is ever handed out (C48_stale); labels taken from contexts are accepted by any operator (C48_context_witness); a replaced context is written although it lacks the field (C48_replaced_witness)."
  },
  {
   "property": "C49",
   "status": "partial",
   "theorems": [
    "Verif.Ceed.C49_lookup_partial",
    "Verif.Ceed.C49_default",
    "Verif.Ceed.C49_second_witness"
   ],
   "note": "Proved for one object delegate and for the default; setting a second one is undefined behaviour (C49_second_witness)."
  },
  {
   "property": "C50",
   "status": "partial",
   "theorems": [
    "Verif.QFunction.C50_exact",
    "Verif.QFunction.C50_found",
    "Verif.QFunction.C50_unknown",
    "Verif.QFunction.C50_register",
    "Verif.QFunction.C50_prefix_witness",
    "Verif.QFunction.C50_gallery"
   ],
   "note": "Exact lookup and unknown-name failure proved for every registration sequence. Partial: a request that is a proper prefix of an earlier registered name is answered with the wrong QFunction (C50_prefix_witness)."
  },
  {
   "property": "C51",
   "status": "proved",
   "theorems": [
    "Verif.QFunction.C51_identity_scale",
    "Verif.QFunction.C51_mass_build",
    "Verif.QFunction.C51_mass_apply",
    "Verif.QFunction.C51_poisson_build",
    "Verif.QFunction.C51_poisson_apply",
    "Verif.QFunction.C51_poisson3",
    "Verif.QFunction.C51_poisson2"
   ],
   "note": "Over any field, for any number of points and components; Poisson builders under invertible Jacobians (the code divides by the determinant)."
  },
  {
   "property": "C52",
   "status": "partial",
   "theorems": [
    "Verif.Operator.C52_galerkin",
    "Verif.Operator.C52_coarsened"
   ],
   "note": "For nested spaces (stated as identities between the basis matrices), interpolated functions continuous, multiplicities above the reciprocal's tolerance, and exact arithmetic. Any QFunction."
  },
  {
   "property": "C53",
   "status": "partial",
   "theorems": [
    "Verif.Basis.C53_opt",
    "Verif.Basis.C53_avx_contraction_partial",
    "Verif.Basis.C53_room_exact",
    "Verif.Basis.C53_avx_tensor_partial",
    "Verif.Basis.C53_avx_nontensor_partial",
    "Verif.Basis.C53_avx_overrun_witness"
   ],
   "note": "The opt contraction is the reference contraction. The avx contraction equals the reference contraction whenever that one is defined, except for one column and one row of results, where it is proved to be defined exactly if the array has room for whole registers (C53_avx_contraction_partial); so applying a basis agrees for any number of elements but one, and for one element with more than one node and quadrature point. Beyond that the claim is false, see the witness."
  },
  {
   "property": "C54",
   "status": "partial",
   "theorems": [
    "Verif.Operator.C54_blocked_apply_add",
    "Verif.Operator.C54_blocked_apply",
    "Verif.Operator.C54_blocked_apply_add_succeeds",
    "Verif.Operator.C54_blocked_apply_succeeds",
    "Verif.Operator.C54_blocked_as_reference",
    "Verif.Operator.C54_in_place_witness",
    "Verif.Operator.C54_longer_vector_witness",
    "Verif.Operator.C54_apply_add",
    "Verif.Operator.C54_apply",
    "Verif.Operator.C54_apply_add_succeeds",
    "Verif.Operator.C54_apply_succeeds",
    "Verif.Operator.C54_as_reference"
   ],
   "note": "Operators of backends/opt with blocks of any size, after any history, failed calls included: a successful ApplyAdd/Apply computes the action of C37, hence the vectors of the reference backend (C54_apply_add, C54_apply, C54_as_reference); exact conditions of success after histories without failures (C54_apply_add_succeeds, C54_apply_succeeds). The same for backends/blocked, also in place and for longer vectors (C54_blocked_*). The QFunction is assumed to work point by point (Pointwise), because it is called with several elements at once. On backends/opt false when the active input is also an output (C54_in_place_witness) and for vectors longer than the restriction asks for (C54_longer_vector_witness)."
  },
  {
   "property": "C55",
   "status": "partial",
   "theorems": [
    "Verif.Operator.C55_skip_witness",
    "Verif.Operator.C55_long_witness",
    "Verif.Operator.C55_nested_witness",
    "Verif.Operator.C55_multiplicity_partial",
    "Verif.Operator.C55_rejected",
    "Verif.Operator.C55_rejected_composite"
   ],
   "note": "Proved for composite operators whose sub-operators each have one active restriction made for vectors of the length given, when no index to skip designates a sub-operator: every entry becomes the number of sub-operators that touch it. Missing: indices to skip have no effect at all (C55_skip_witness); a longer vector leads to a read beyond the end (C55_long_witness). Errors are proved for missing or ambiguous active inputs and for nested composites. Locks of vectors are not part of this model."
  },
  {
   "property": "C56",
   "status": "partial",
   "theorems": [
    "Verif.Operator.C56_unset_witness",
    "Verif.Operator.C56_two_active_inputs_witness",
    "Verif.Operator.C56_two_outputs_witness",
    "Verif.Operator.C56_no_points_witness",
    "Verif.Operator.C56_apply_add_partial",
    "Verif.Operator.C56_apply_partial",
    "Verif.Operator.C56_apply_add_succeeds_partial",
    "Verif.Operator.C56_apply_succeeds_partial"
   ],
   "note": "Reference backend, after any history of applications (failed ones included), vector changes and uses of the bases: a successful ApplyAdd/Apply computes the sum over elements and points (C56_apply_add_partial, C56_apply_partial); exact conditions of success after histories without failures. Hypotheses (AtOK): tensor bases created by the library with at least two quadrature points in exact arithmetic (as C25); every element has a point if there is an output with a basis (C25_no_points_witness); no two active inputs, and no two outputs, without basis share vector and restriction (false otherwise: C56_two_active_inputs_witness, C56_two_outputs_witness); the identity QFunction has an output without basis; passive inputs were written before (otherwise they are read as zeros without an error: C56_unset_witness). An operator without points dereferences a null pointer (C56_no_points_witness). Assembly of the QFunction at points: C79."
  },
  {
   "property": "C57",
   "status": "partial",
   "theorems": [
    "Verif.Basis.C57_lagrange",
    "Verif.Basis.C57_dimension_witness",
    "Verif.Basis.C57_outside_witness",
    "Verif.Basis.C57_orthogonal_witness",
    "Verif.Basis.C57_nontensor",
    "Verif.Basis.C57_tensor",
    "Verif.Basis.C57_nested",
    "Verif.Basis.C57_exact_nontensor",
    "Verif.Basis.C57_exact_tensor",
    "Verif.Basis.C57_identity_nontensor",
    "Verif.Basis.C57_identity_tensor",
    "Verif.Basis.C57_points_rejected",
    "Verif.Basis.C57_space_rejected"
   ],
   "note": "Proved for tensor and non-tensor bases of every size, in exact arithmetic (comparisons with 1E-14 and 10*CEED_EPSILON only accept zero). Two tensor bases must agree in dimension and points per direction: the code compares only the total number of points, and C57_dimension_witness / C57_outside_witness show that other pairs are accepted with wrong sizes or read outside the 1D matrix. For two tensor bases with no more nodes in basis_from than in basis_to, no function of basis_from other than zero may be orthogonal to all of basis_to (C57_orthogonal_witness: division by zero in the collocated gradient)."
  },
  {
   "property": "C58",
   "status": "partial",
   "theorems": [
    "Verif.Composite.C58_unique_witness",
    "Verif.Composite.C58_empty_witness",
    "Verif.Composite.C58_pattern",
    "Verif.Composite.C58_unique_partial",
    "Verif.Composite.C58_single_partial",
    "Verif.Composite.C58_composite_partial",
    "Verif.Composite.C58_square",
    "Verif.Composite.C58_incompatible"
   ],
   "note": "The pattern is proved outright (C58_pattern) for operators with one active basis and restriction per part (BlockOK); with the values as far as C44 goes. Uniqueness holds if every node belongs to an element and fails otherwise (C58_unique_witness: all pairs of such a node are (0, 0)). A composite without parts is read out of bounds (C58_empty_witness). Nested composites are not covered: their assembly data cannot be created."
  },
  {
   "property": "C59",
   "status": "partial",
   "theorems": [
    "Verif.Fortran.C59_copy_witness",
    "Verif.Fortran.C59_apply_add_witness",
    "Verif.Fortran.C59_string_witness",
    "Verif.Fortran.C59_interior_witness",
    "Verif.Fortran.C59_stub_witness",
    "Verif.Fortran.C59_context_witness",
    "Verif.Fortran.C59_designates_partial",
    "Verif.Fortran.C59_fresh",
    "Verif.Fortran.C59_fresh_three",
    "Verif.Fortran.C59_no_reuse",
    "Verif.Fortran.C59_failure",
    "Verif.Fortran.C59_destroy",
    "Verif.Fortran.C59_refused",
    "Verif.Fortran.C59_restart",
    "Verif.Fortran.C59_set_field",
    "Verif.Fortran.C59_apply_partial",
    "Verif.Fortran.C59_string_partial",
    "Verif.Fortran.C59_interior_partial",
    "Verif.Fortran.C59_stub_partial",
    "Verif.Fortran.C59_context_partial"
   ],
   "note": "Proved for all histories in which no handle is used after its object was destroyed: every live handle designates its object (C59_designates_partial), new handles are fresh, failures and refusals change nothing, destruction is defined, the table is freed with the last object, numbering restarts. Arguments of SetField, Apply, BasisApply are decoded as meant. Violations of the code, each with a witness: destroying a copy of a destroyed handle frees the table while other objects are in use; CeedOperatorApplyAdd reads the table at -6 for FORTRAN_VECTOR_NONE; strings longer than 1023 characters are written past the array; CeedQFunctionCreateInterior continues with an uninitialized pointer after failure; error codes of Fortran QFunctions with context are lost; the context of a QFunction is stored without a reference."
  },
  {
   "property": "C60",
   "status": "partial",
   "theorems": [
    "Verif.Memcheck.C60_arithmetic_state_witness",
    "Verif.Memcheck.C60_arithmetic_reading_witness",
    "Verif.Memcheck.C60_arithmetic_writing_witness",
    "Verif.Memcheck.C60_stale_witness",
    "Verif.Memcheck.C60_defined",
    "Verif.Memcheck.C60_values",
    "Verif.Memcheck.C60_error_keeps",
    "Verif.Memcheck.C60_read",
    "Verif.Memcheck.C60_violation",
    "Verif.Memcheck.C60_restore_read",
    "Verif.Memcheck.C60_write",
    "Verif.Memcheck.C60_lent",
    "Verif.Memcheck.C60_other_arrays",
    "Verif.Memcheck.C60_state_partial"
   ],
   "note": "Proved for all histories: no legal call is undefined (C60_defined), documented effect on the values of all vectors (C60_values), failures change nothing (C60_error_keeps), exact conditions for read and write access and what the arrays show (C60_read, C60_write), the last CeedVectorRestoreArrayRead fails exactly if the array was changed (C60_violation), lent arrays (C60_lent), other arrays (C60_other_arrays). C60_state_partial leaves out arithmetic: with a backend function CeedVectorScale, AXPY, AXPBY, PointwiseMult and Reciprocal change values without changing the state counter, and they ignore accesses (witnesses); after a reported violation the changed copy is kept and given to later readers (witness)."
  },
  {
   "property": "C61",
   "status": "partial",
   "theorems": [
    "Verif.Gpu.C61_strided_overlap_witness",
    "Verif.Gpu.C61_deterministic_overlap_witness",
    "Verif.Gpu.C61_deterministic_device_offsets_witness",
    "Verif.Gpu.C61_layout",
    "Verif.Gpu.C61_create",
    "Verif.Gpu.C61_gather",
    "Verif.Gpu.C61_scatter_atomic",
    "Verif.Gpu.C61_scatter_deterministic_partial",
    "Verif.Gpu.C61_scatter_strided_partial",
    "Verif.Gpu.C61_size_checks"
   ],
   "note": "Proved on every schedule, for all sizes: L-vector to E-vector for offsets, orientations, curl orientations and strides in all variants (C61_gather), E-vector to L-vector with atomics (C61_scatter_atomic), deterministic when components of different nodes do not overlap (C61_scatter_deterministic_partial), strided for backend strides and for strides that keep nodes apart (C61_scatter_strided_partial); creation and size checks (C61_create, C61_size_checks). Missing because false: overlapping strides (C61_strided_overlap_witness) and overlapping components on deterministic backends (C61_deterministic_overlap_witness) race and lose contributions; device offsets on deterministic backends are undefined (C61_deterministic_device_offsets_witness). Not modelled: restrictions at points on the GPU."
  },
  {
   "property": "C62",
   "status": "partial",
   "theorems": [
    "Verif.Gpu.C62_interp",
    "Verif.Gpu.C62_grad",
    "Verif.Gpu.C62_weights_partial",
    "Verif.Gpu.C62_weights_dim4_witness",
    "Verif.Gpu.C62_weight_transpose_witness",
    "Verif.Gpu.C62_no_weights",
    "Verif.Gpu.C62_no_elements_witness",
    "Verif.Gpu.C62_none",
    "Verif.Gpu.C62_none_longer_witness",
    "Verif.Gpu.C62_nontensor",
    "Verif.Gpu.C62_nontensor_weights",
    "Verif.Gpu.C62_block_limit_witness",
    "Verif.Gpu.C62_too_short",
    "Verif.Gpu.C62_same_as_host"
   ],
   "note": "Interpolation, gradient, transposes and adding application of tensor bases of any dimension, all modes of non-tensor bases, and weights up to dimension 3 are proved on all schedules, and shown to agree with the host backend. Witnesses: weights in dimension 4 and more are not written; transposed weights succeed where the host reports an error; zero elements fail in the driver; CEED_EVAL_NONE reads behind a shorter input; a non-tensor basis with more points than a block may have threads is refused. Not modelled: application at points on a device, kernel compilation."
  },
  {
   "property": "C63",
   "status": "partial",
   "theorems": [
    "Verif.DevVec.C63_copy_strided_witness",
    "Verif.DevVec.C63_copy_strided_bounds_witness",
    "Verif.DevVec.C63_set_value_strided_witness",
    "Verif.DevVec.C63_set_value_strided_empty_witness",
    "Verif.DevVec.C63_reader_witness",
    "Verif.DevVec.C63_reciprocal_witness",
    "Verif.DevVec.C63_copy_locked_witness",
    "Verif.DevVec.C63_mult_failed_witness",
    "Verif.DevVec.C63_safe",
    "Verif.DevVec.C63_coherent",
    "Verif.DevVec.C63_values_unique",
    "Verif.DevVec.C63_documented",
    "Verif.DevVec.C63_returned",
    "Verif.DevVec.C63_others",
    "Verif.DevVec.C63_failed_partial",
    "Verif.DevVec.C63_arrays",
    "Verif.DevVec.C63_lent",
    "Verif.DevVec.C63_writing",
    "Verif.DevVec.C63_reading_partial",
    "Verif.DevVec.C63_no_leak",
    "Verif.DevVec.C63_separate",
    "Verif.Gpu.C63_kernel_set_value",
    "Verif.Gpu.C63_kernel_scale",
    "Verif.Gpu.C63_kernel_reciprocal",
    "Verif.Gpu.C63_kernel_axpy",
    "Verif.Gpu.C63_kernel_axpby",
    "Verif.Gpu.C63_kernel_mult",
    "Verif.Gpu.C63_kernel_set_value_strided",
    "Verif.Gpu.C63_kernel_copy_strided"
   ],
   "note": "Coherence, documented effects, returned arrays, frames, lending, writing access, memory safety and freedom from leaks are proved over all histories of legal calls; legal leaves out strided copies with a step above one on CUDA 12 and windows outside of the vector, where the code is wrong (witnesses). Further witnesses: arithmetic on a vector that is being read succeeds, changes the values and keeps the state; in single precision Reciprocal leaves copies that differ; a failed Copy leaves its vectors locked; a failed PointwiseMult has zeroed the result. The kernels are proved on every schedule. Not modelled: HIP's unified memory, norms' rounding, __restrict__."
  },
  {
   "property": "C64",
   "status": "partial",
   "theorems": [
    "Verif.Basis.C64_schur_partial",
    "Verif.Basis.C64_scalar",
    "Verif.Basis.C64_eigenpairs",
    "Verif.Basis.C64_reducible_witness",
    "Verif.Basis.C64_simdiag_partial",
    "Verif.Basis.C64_simdiag_scalar",
    "Verif.Basis.C64_diagonal_mass_witness"
   ],
   "note": "What a successful call writes is proved for all symmetric (and positive definite) matrices, with explicit bounds (2 n^5 tol^2 on the sum of squares off the diagonal, divided by beta^2 for the second matrix). Violated: matrices whose first column is zero below the diagonal (every diagonal matrix with n > 2, hence diagonal mass matrices) lead to 0/0 (witnesses). Not proved: that the iteration converges within n^4 sweeps; rounding is not modelled, arithmetic is exact."
  },
  {
   "property": "C65",
   "status": "partial",
   "theorems": [
    "Verif.Jit.C65_normalize",
    "Verif.Jit.C65_colon",
    "Verif.Jit.C65_load_partial",
    "Verif.Jit.C65_load_more_partial",
    "Verif.Jit.C65_once",
    "Verif.Jit.C65_cycle",
    "Verif.Jit.C65_cycle_witness",
    "Verif.Jit.C65_comment_witness",
    "Verif.Jit.C65_quote_witness",
    "Verif.Jit.C65_last_line_witness",
    "Verif.Jit.C65_empty_witness",
    "Verif.Jit.C65_two_names_witness",
    "Verif.Jit.C65_double_slash_witness",
    "Verif.Jit.C65_root_witness"
   ],
   "note": "Proved for all files whose directives stand on their own lines (C65_load_partial), normalisation of paths for all names (C65_normalize), and, for all files whatever they hold, that a successful load puts no header in place twice (C65_once). Violated: headers that include each other recurse without end in spite of `#pragma once`, directives in comments are carried out and a character is lost, quotes in a comment after <...> are taken for a name, a directive on a last line without line break computes with a null pointer, empty headers are an error, double slashes give a second name (witnesses)."
  },
  {
   "property": "C66",
   "status": "partial",
   "theorems": [
    "Verif.Gpu.C66_between_witness",
    "Verif.Gpu.C66_lost_output_witness",
    "Verif.Gpu.C66_shared_output_witness",
    "Verif.Gpu.C66_work_vector_witness",
    "Verif.Gpu.C66_direct_input_witness",
    "Verif.Gpu.C66_apply_add_partial",
    "Verif.Gpu.C66_apply_partial",
    "Verif.Gpu.C66_apply_alias_partial",
    "Verif.Gpu.C66_schedule_partial",
    "Verif.Gpu.C66_reference_partial",
    "Verif.Gpu.C66_devices",
    "Verif.Gpu.C66_restriction_in",
    "Verif.Gpu.C66_restriction_out",
    "Verif.Gpu.C66_restriction_out_deterministic_partial",
    "Verif.Gpu.C66_restriction_out_strided_partial",
    "Verif.Gpu.C66_weights_partial"
   ],
   "note": "Proved with success (no error, no undefined behaviour) for all operators whose fields are set correctly and which meet four conditions on sharing, on every schedule and after every history; also independence of schedule and history, and agreement with the host (C66_reference_partial). Violated without the conditions: an output without basis between two outputs that share makes the application fail (line 587 uses the position instead of the field), an output without basis that shares with one with basis is lost and the work vector is added instead, other such patterns fail (witnesses). Not modelled: assembly and operators at points on GPUs, QFunction contexts, compilation, histories with failing calls."
  },
  {
   "property": "C67",
   "status": "partial",
   "theorems": [
    "Verif.Operator.C67_apply",
    "Verif.Operator.C67_inverse_partial",
    "Verif.Operator.C67_cancel_witness",
    "Verif.Operator.C67_small_witness",
    "Verif.Operator.C67_modes_witness",
    "Verif.Operator.C67_separable",
    "Verif.Operator.C67_average",
    "Verif.Operator.C67_no_active",
    "Verif.Operator.C67_non_tensor",
    "Verif.Operator.C67_no_basis_witness",
    "Verif.Operator.C67_one_node_witness",
    "Verif.Operator.C67_collocated_witness",
    "Verif.Operator.C67_created"
   ],
   "note": "C67_created says what a successful call leaves behind (eigenvectors of the library's solver for the 1D matrices, averages, scales, basis, restriction, operator); C67_apply is the action of the new operator after any history, C67_inverse_partial that it solves the separable element problems when the eigenvectors are exact and no sum of eigenvalues is replaced by the bound; C67_separable and C67_average identify these problems with the element matrices of an operator with constant coefficients. Missing: the solver is only as exact as C64 shows, and the code perturbs the stiffness matrix on purpose. Witnesses: bases with one node, collocated bases with three or more nodes, coefficients of different signs, elements with relatively small coefficients, outputs tested in another mode, an active input without basis."
  },
  {
   "property": "C68",
   "status": "partial",
   "theorems": [
    "Verif.Quad.C68_gauss",
    "Verif.Quad.C68_gauss_symmetric",
    "Verif.Quad.C68_gauss_bounds",
    "Verif.Quad.C68_gauss_partial",
    "Verif.Quad.C68_gauss_one",
    "Verif.Quad.C68_gauss_witness",
    "Verif.Quad.C68_lobatto",
    "Verif.Quad.C68_lobatto_symmetric",
    "Verif.Quad.C68_lobatto_bounds",
    "Verif.Quad.C68_lobatto_few",
    "Verif.Quad.C68_lobatto_partial"
   ],
   "note": "Exactness is proved for every polynomial of the degree when the iterations end in distinct zeros (exact arithmetic); that they converge from the guesses, and rounding, are missing. C68_gauss_witness: no points, or minus one, are not rejected by CeedGaussQuadrature, unlike CeedLobattoQuadrature; the arrays are written out of bounds."
  },
  {
   "property": "C69",
   "status": "partial",
   "theorems": [
    "Verif.Operator.C69_passive_output_witness",
    "Verif.Operator.C69_empty_witness",
    "Verif.Operator.C69_oriented_witness",
    "Verif.Operator.C69_add_diagonal_partial",
    "Verif.Operator.C69_diagonal_partial",
    "Verif.Operator.C69_add_diagonal_succeeds_partial",
    "Verif.Operator.C69_not_square",
    "Verif.Operator.C69_apply_after_partial"
   ],
   "note": "Proved for operators covered by C56 whose QFunction is linear in the active inputs and whose active fields share a restriction without orientations and without repeated nodes in an element. Refuted in general: assembling the diagonal adds values into passive output vectors, gives the wrong sign for flipped nodes of oriented restrictions, and leaves the vector untouched for an operator without elements. Not modelled: composite operators, failing allocations."
  },
  {
   "property": "C70",
   "status": "partial",
   "theorems": [
    "Verif.Gpu.C70_curl_fallback_witness",
    "Verif.Gpu.C70_curl_input_witness",
    "Verif.Gpu.C70_curl_output_witness",
    "Verif.Gpu.C70_adjacent_witness",
    "Verif.Gpu.C70_assemble_partial",
    "Verif.Gpu.C70_host_partial",
    "Verif.Gpu.C70_succeeds",
    "Verif.Gpu.C70_large_rejected",
    "Verif.Gpu.C70_bases_rejected"
   ],
   "note": "Proved for operators covered by C45 with elements, nodes and components, on any schedule, when no restriction is curl oriented or both are and a block has a thread for each entry of the element matrix. Refuted in general: with fewer threads than entries, or curl orientations on one side and several components, threads race for the shared arrays and entries are wrong; adjacent gradients read beyond the matrices. Not modelled: limits of shared memory, 32 bit index overflow. The QFunction assembled on the device is C73 (C73_matrix_partial, C73_diagonal_partial)."
  },
  {
   "property": "C71",
   "status": "partial",
   "theorems": [
    "Verif.Gpu.C71_curl_witness",
    "Verif.Gpu.C71_repeated_witness",
    "Verif.Gpu.C71_adjacent_witness",
    "Verif.Gpu.C71_diagonal_partial",
    "Verif.Gpu.C71_block_partial",
    "Verif.Gpu.C71_scatter",
    "Verif.Gpu.C71_block_scatter",
    "Verif.Gpu.C71_succeeds",
    "Verif.Gpu.C71_large_rejected",
    "Verif.Gpu.C71_bases_rejected"
   ],
   "note": "Proved for operators with one basis and the same restriction on both sides in which equal evaluation modes are separated by other modes, on any schedule of both kernels; point blocks under the conditions of C44. Refuted in general: two values in a row with the same basis make the kernel read beyond the tables (the host is correct); curl orientations; entries that occur twice in an element. Not modelled: active inputs without basis, compilation, 32 bit index overflow. The QFunction assembled on the device is C73 (C73_matrix_partial, C73_diagonal_partial)."
  },
  {
   "property": "C72",
   "status": "partial",
   "theorems": [
    "Verif.Operator.C72_blocked_columns_partial",
    "Verif.Operator.C72_blocked_columns_single",
    "Verif.Operator.C72_blocked_build_partial",
    "Verif.Operator.C72_blocked_reuse",
    "Verif.Operator.C72_blocked_update_partial",
    "Verif.Operator.C72_blocked_vectors",
    "Verif.Operator.C72_blocked_succeeds",
    "Verif.Operator.C72_blocked_again",
    "Verif.Operator.C72_blocked_as_reference",
    "Verif.Operator.C72_blocked_apply_after",
    "Verif.Operator.C72_blocked_apply_after_succeeds",
    "Verif.Operator.C72_blocked_stale_witness",
    "Verif.Operator.C72_blocked_shared_witness",
    "Verif.Operator.C72_blocked_empty_witness",
    "Verif.Operator.C72_columns_partial",
    "Verif.Operator.C72_columns_single",
    "Verif.Operator.C72_build_partial",
    "Verif.Operator.C72_reuse",
    "Verif.Operator.C72_update_partial",
    "Verif.Operator.C72_vectors",
    "Verif.Operator.C72_succeeds",
    "Verif.Operator.C72_again",
    "Verif.Operator.C72_as_reference",
    "Verif.Operator.C72_apply_after",
    "Verif.Operator.C72_apply_after_succeeds",
    "Verif.Operator.C72_stale_witness",
    "Verif.Operator.C72_shared_witness"
   ],
   "note": "Proved for opt and blocked: for the first assembly after any history and for all later ones without an application in between, and after any history if the active inputs have one component; success is characterised exactly; applications after assemblies are right. Refuted in general: an application between two assemblies leaves values in the first columns (as C43); active inputs without basis that share a restriction share memory and give wrong columns (on blocked after an application); on blocked assembly fails without elements. Not modelled: 32 bit overflow of the length of the blocked restriction."
  },
  {
   "property": "C73",
   "status": "partial",
   "theorems": [
    "Verif.Gpu.C73_stale_witness",
    "Verif.Gpu.C73_dangling_witness",
    "Verif.Gpu.C73_empty_witness",
    "Verif.Gpu.C73_columns_partial",
    "Verif.Gpu.C73_again_partial",
    "Verif.Gpu.C73_succeeds_partial",
    "Verif.Gpu.C73_columns_two",
    "Verif.Gpu.C73_apply_add",
    "Verif.Gpu.C73_apply",
    "Verif.Gpu.C73_build_partial",
    "Verif.Gpu.C73_reuse",
    "Verif.Gpu.C73_update_partial",
    "Verif.Gpu.C73_reference",
    "Verif.Gpu.C73_schedule_partial",
    "Verif.Gpu.C73_nothing",
    "Verif.Gpu.C73_matrix_partial",
    "Verif.Gpu.C73_diagonal_partial"
   ],
   "note": "Proved: the first assembly after any history of applications, and all later ones without an application in between, succeed and are right on every schedule; with bases on all active inputs and at most two active components this holds after every history; applications after assemblies are right; reuse and updates; matrices (C70) and diagonals (C71) assembled on the device from the result are those of the operator. Refuted in general: with three active components an application between two assemblies leaves values that enter the first columns (C73_stale_witness); an application frees the array that an active input without basis is assembled with, and the next assembly writes through the dangling pointer (C73_dangling_witness); an operator without elements is refused (C73_empty_witness). Not modelled: failing calls, operators at points, contexts, HIP unified memory."
  },
  {
   "property": "C74",
   "status": "partial",
   "theorems": [
    "Verif.RstrLife.C74_copy_of_copy_witness",
    "Verif.RstrLife.C74_copy_while_reading_witness",
    "Verif.RstrLife.C74_refused_witness",
    "Verif.RstrLife.C74_replace_witness",
    "Verif.RstrLife.C74_restore_witness",
    "Verif.RstrLife.C74_defined_partial",
    "Verif.RstrLife.C74_errors_partial",
    "Verif.RstrLife.C74_borrowed_partial",
    "Verif.RstrLife.C74_use_partial",
    "Verif.RstrLife.C74_alive_partial",
    "Verif.RstrLife.C74_no_leak_partial",
    "Verif.RstrLife.C74_release_partial"
   ],
   "note": "Proved for all histories in which copies are made of originals from which nothing is borrowed at the time, and no reference or copy is made after a refused destruction: no call is undefined, errors are exactly the predicted ones, borrowed arrays and restrictions in use keep their contents, memory is released exactly when no reference to the restriction or a copy is left, refused destructions can be repeated. Refuted in general: making a copy of a copy releases a reference of the first copy to the original, which is then used after it was freed (C74_copy_of_copy_witness; the assembly of diagonals and matrices makes such copies when the restriction of a field is a copy); a copy made while an array is borrowed can never be destroyed (C74_copy_while_reading_witness); a refused destruction loses the reference, so that a later reference dangles (C74_refused_witness); a reference copy over a restriction that cannot be destroyed leaks (C74_replace_witness); returning an array that was not borrowed is accepted and makes destruction impossible (C74_restore_witness). Reference backend; borrowed user arrays (CEED_USE_POINTER) and GPU backends are not modelled here."
  },
  {
   "property": "C75",
   "status": "partial",
   "theorems": [
    "Verif.Operator.C75_flops_witness",
    "Verif.Operator.C75_writable_witness",
    "Verif.Operator.C75_stale_witness",
    "Verif.Operator.C75_twice_witness",
    "Verif.Operator.C75_composite_witness",
    "Verif.Operator.C75_defines_witness",
    "Verif.Operator.C75_faithful_partial",
    "Verif.Operator.C75_same",
    "Verif.Operator.C75_action_partial",
    "Verif.Operator.C75_once",
    "Verif.Operator.C75_errors_partial",
    "Verif.Operator.C75_defined_partial",
    "Verif.Operator.C75_composite_partial",
    "Verif.Operator.C75_roots_partial"
   ],
   "note": "Proved for every history that sets no field twice: the request for a fallback is defined; for an operator that passes the readiness check it succeeds and gives a ready copy with the same fields, numbers, user function and context, which is the same operator for the backend and has the same action (C37 applies to it); later requests give the same fallback; otherwise the error of the readiness check is returned and no fallback is kept; composites; source roots. Refuted in general: a field replaced after the fallback was made is not replaced in the fallback (C75_stale_witness); with a field set twice a missing field is dereferenced (C75_twice_witness); the flop estimate and the declaration that the context is only read are lost (C75_flops_witness, C75_writable_witness); a suboperator whose Ceed has no fallback is dereferenced (C75_composite_witness); defines for compilation at run time become source roots (C75_defines_witness). Operators at points, the second and third QFunction and the sharing of assembled QFunction data are not modelled here."
  },
  {
   "property": "C76",
   "status": "partial",
   "theorems": [
    "Verif.DevCtx.C76_resize_witness",
    "Verif.DevCtx.C76_resize_lent_witness",
    "Verif.DevCtx.C76_overwritten_witness",
    "Verif.DevCtx.C76_dangling_witness",
    "Verif.DevCtx.C76_undestroyed_witness",
    "Verif.DevCtx.C76_defined_partial",
    "Verif.DevCtx.C76_coherent_partial",
    "Verif.DevCtx.C76_documented_partial",
    "Verif.DevCtx.C76_failed_partial",
    "Verif.DevCtx.C76_exclusive_partial",
    "Verif.DevCtx.C76_no_leak_partial",
    "Verif.DevCtx.C76_readers_partial",
    "Verif.DevCtx.C76_reading_partial"
   ],
   "note": "Proved for every history of a program that keeps the contract `Legal`: definedness, coherence, the documented effect of every successful call, nothing changed by a failing one, exclusive write access, stability of arrays that are read, no leak. Refuted in general: after the context gets longer data on one side, the next access on the other side copies it to the old, too short array, owned or lent (C76_resize_witness, C76_resize_lent_witness); an array lent for earlier data is overwritten with the new data (C76_overwritten_witness); new data is accepted while the old data is read, whose array is freed (C76_dangling_witness); with a data destroy function and no data, a context can neither be destroyed nor get data (C76_undestroyed_witness). Failures of the CUDA runtime and several references to one context are not modelled; what the data destroy function does to memory is not modelled."
  },
  {
   "property": "C77",
   "status": "partial",
   "theorems": [
    "Verif.CheckCtx.C77_device_witness",
    "Verif.CheckCtx.C77_reset_witness",
    "Verif.CheckCtx.C77_reset_longer_witness",
    "Verif.CheckCtx.C77_take_witness",
    "Verif.CheckCtx.C77_leak_witness",
    "Verif.CheckCtx.C77_stale_witness",
    "Verif.CheckCtx.C77_field_witness",
    "Verif.CheckCtx.C77_null_witness",
    "Verif.CheckCtx.C77_undestroyed_witness",
    "Verif.CheckCtx.C77_defined_partial",
    "Verif.CheckCtx.C77_documented_partial",
    "Verif.CheckCtx.C77_failed_partial",
    "Verif.CheckCtx.C77_reports_partial",
    "Verif.CheckCtx.C77_lent_partial",
    "Verif.CheckCtx.C77_access_partial",
    "Verif.CheckCtx.C77_readers_partial",
    "Verif.CheckCtx.C77_private_partial",
    "Verif.CheckCtx.C77_no_leak_partial",
    "Verif.CheckCtx.C77_destroyed_partial"
   ],
   "note": "Proved for every history of a program that keeps the contract `Legal`: definedness, the documented effect of every successful call, nothing changed by a failing one, changes of read-only data reported exactly when there are any, lent arrays in step with the data, exclusion of readers and writers, arrays granted are never those of the data, the call of the data destroy function, no leak. Refuted in general: data on a device is refused after the old data was destroyed (C77_device_witness); new data is accepted while the old data is read, the next reader then gets the old values (C77_reset_witness), and longer new data makes the check run over the end of the copy (C77_reset_longer_witness); data can be taken while it is read, and access can then not be given back without reading a null pointer (C77_take_witness); a context destroyed while it is read leaks the copy (C77_leak_witness); after a change was reported the changed copy is handed out to the next reader, who is blamed again (C77_stale_witness), and fields cannot be set (C77_field_witness); the data destroy function of copied data gets a null pointer (C77_null_witness); a data destroy function for a device makes the context impossible to destroy (C77_undestroyed_witness). What the data destroy function does to memory, several references and Valgrind requests are not modelled."
  },
  {
   "property": "C78",
   "status": "partial",
   "theorems": [
    "Verif.CheckQF.C78_changed_partial",
    "Verif.CheckQF.C78_points_partial",
    "Verif.CheckQF.C78_locked_witness",
    "Verif.CheckQF.C78_failed_witness",
    "Verif.CheckQF.C78_alias_witness",
    "Verif.CheckQF.C78_longer_witness",
    "Verif.CheckQF.C78_other_reader_witness",
    "Verif.CheckQF.C78_applied_partial",
    "Verif.CheckQF.C78_reports_partial",
    "Verif.CheckQF.C78_unset_partial",
    "Verif.CheckQF.C78_context_partial",
    "Verif.CheckQF.C78_refused_partial"
   ],
   "note": "Proved for every user function that does not write outside of its arrays: the effect of an application (inputs may share vectors), a report exactly if an entry of an output is not set (inputs unchanged), a report of a changed input (if no vector is used for two inputs) and of a changed read-only context, refusal of a wrong number of points without any change, and of vectors and contexts that somebody else has access to (C78_refused_partial). Refuted in general: after a report outputs and context stay locked, so that the corrected function cannot be applied (C78_locked_witness), and the same after the user function has failed (C78_failed_witness); a vector used as input and output is refused and stays locked (C78_alias_witness); entries of an output vector beyond the output lose their values without a report (C78_longer_witness); a changed input is not reported while somebody else reads the vector (C78_other_reader_witness). The functions of vectors and contexts are summarised; C60 and C77 treat them in full."
  },
  {
   "property": "C79",
   "status": "partial",
   "theorems": [
    "Verif.Operator.C79_weights_cleared_witness",
    "Verif.Operator.C79_more_outputs_witness",
    "Verif.Operator.C79_stale_inputs_witness",
    "Verif.Operator.C79_restriction_witness",
    "Verif.Operator.C79_assembled_partial",
    "Verif.Operator.C79_action_partial",
    "Verif.Operator.C79_succeeds_partial",
    "Verif.Operator.C79_rejects_partial",
    "Verif.Operator.C79_restriction_shape_partial"
   ],
   "note": "Reference backend, after any history of successful assemblies, changes of vectors and uses of the bases: a successful assembly or update stores the value of the QFunction on every unit input (C79_assembled_partial), for QFunctions linear in the active inputs these are its coefficients (C79_action_partial), the assembly succeeds if the passive data is there (C79_succeeds_partial), active fields at points are refused (C79_rejects_partial). Refuted in general: setting up the outputs clears the input with the number of the output, so that weights listed there become zero and the assembled QFunction with them (C79_weights_cleared_witness), and a null pointer is used if there is no such input (C79_more_outputs_witness); active inputs keep the values of an earlier application (C79_stale_inputs_witness); the returned restriction does not match the layout of the array (C79_restriction_witness). The returned restriction exists, has the points of the operator and the length of the array (C79_restriction_shape_partial). Not modelled: the arrays of passive outputs, passive inputs whose array belongs to the program after an application."
  },
  {
   "property": "C80",
   "status": "partial",
   "theorems": [
    "Verif.Restriction.C80_elayout_partial",
    "Verif.Restriction.C80_elayout_transpose_partial",
    "Verif.Restriction.C80_elayout_injective_partial",
    "Verif.Restriction.C80_llayout",
    "Verif.Restriction.C80_llayout_blocked",
    "Verif.Restriction.C80_no_llayout",
    "Verif.Restriction.C80_vectors",
    "Verif.Restriction.C80_points_layout_partial",
    "Verif.Restriction.C80_num_points",
    "Verif.Restriction.C80_points_only",
    "Verif.Restriction.C80_vectors_points",
    "Verif.Restriction.C80_compatible",
    "Verif.Restriction.C80_compatible_sound",
    "Verif.Restriction.C80_compatible_rejects",
    "Verif.Restriction.C80_grow",
    "Verif.Restriction.C80_blocked_layout_witness",
    "Verif.Restriction.C80_points_layout_witness",
    "Verif.Restriction.C80_compatible_witness"
   ],
   "note": "Reference backend. Restrictions that are not blocked: C80_elayout_partial, C80_elayout_transpose_partial, C80_elayout_injective_partial; strided: C80_llayout, C80_llayout_blocked, otherwise C80_no_llayout; at points with one component: C80_points_layout_partial; vectors: C80_vectors; comparison: C80_compatible for arrays arranged as documented, C80_compatible_sound for all, C80_compatible_rejects; C80_num_points, C80_points_only, C80_vectors_points, C80_grow. Refuted: the layout reported for a blocked restriction ignores the interleaving of the elements of a block (C80_blocked_layout_witness), the one of an at-points restriction gives all components of a point the same position, because its element size is zero (C80_points_layout_witness), entries belonging to no element are compared too (C80_compatible_witness)."
  },
  {
   "property": "C81",
   "status": "partial",
   "theorems": [
    "Verif.Query.C81_active_found_partial",
    "Verif.Query.C81_active_succeeds_partial",
    "Verif.Query.C81_none_active",
    "Verif.Query.C81_ambiguous",
    "Verif.Query.C81_none_active_output",
    "Verif.Query.C81_ambiguous_output",
    "Verif.Query.C81_tensor",
    "Verif.Query.C81_field_by_name",
    "Verif.Query.C81_sub_by_name",
    "Verif.Query.C81_incomplete",
    "Verif.Query.C81_composite_witness",
    "Verif.Query.C81_sub_setup_witness",
    "Verif.Query.C81_ambiguous_leak_witness",
    "Verif.Query.C81_incomplete_leak_witness"
   ],
   "note": "Successful calls: C81_active_found_partial (result and counts), C81_active_succeeds_partial; errors: C81_none_active, C81_none_active_output, C81_ambiguous, C81_ambiguous_output, C81_incomplete; C81_tensor, C81_field_by_name, C81_sub_by_name. Refuted: the documented null pointer for composite operators is an error instead (C81_composite_witness), a call refused because of several active bases keeps a reference to the second one (C81_ambiguous_leak_witness), a call refused because the operator is not complete keeps a reference to the QFunction (C81_incomplete_leak_witness), looking up a sub-operator does not set up the operator although documented (C81_sub_setup_witness)."
  },
  {
   "property": "C82",
   "status": "partial",
   "theorems": [
    "Verif.JitPaths.C82_history",
    "Verif.JitPaths.C82_lent_unchanged",
    "Verif.JitPaths.C82_add",
    "Verif.JitPaths.C82_add_refused",
    "Verif.JitPaths.C82_get",
    "Verif.JitPaths.C82_get_restore",
    "Verif.JitPaths.C82_fallback_partial",
    "Verif.JitPaths.C82_fallback_again",
    "Verif.JitPaths.C82_destroy_refused",
    "Verif.JitPaths.C82_fallback_defines_witness",
    "Verif.JitPaths.C82_fallback_late_witness",
    "Verif.JitPaths.C82_refused_leak_witness",
    "Verif.JitPaths.C82_destroy_refused_witness"
   ],
   "note": "Over all histories: C82_history, C82_lent_unchanged. One call: C82_add, C82_add_refused, C82_get, C82_get_restore, C82_fallback_partial, C82_fallback_again, C82_destroy_refused. Refuted: the defines are added to the source roots of the fallback instead of its defines (C82_fallback_defines_witness), what is added later does not reach a fallback that exists (C82_fallback_late_witness), a refused addition keeps a reference to the Ceed (C82_refused_leak_witness), after a refused destruction the Ceed is freed when the list is given back while the handle is still set (C82_destroy_refused_witness). Not modelled: delegates made by the backend of the fallback."
  }
 ]
}