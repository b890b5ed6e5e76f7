{
 "claims": [
  {
   "property": "C01",
   "status": "proved",
   "theorems": [
    "IFEM.Props.C01_equation_numbering"
   ],
   "note": ""
  },
  {
   "property": "C02",
   "status": "proved",
   "theorems": [
    "IFEM.Props.C02_accepts_iff_valid",
    "IFEM.Props.C02_slave_owner"
   ],
   "note": ""
  },
  {
   "property": "C03",
   "status": "proved",
   "theorems": [
    "IFEM.Props.C03_reaction_indices",
    "IFEM.Props.C03_not_dense_after_rebuild"
   ],
   "note": ""
  },
  {
   "property": "C04",
   "status": "proved",
   "theorems": [
    "IFEM.Props.C04_node_out_of_range",
    "IFEM.Props.C04_node_and_local_dof",
    "IFEM.Props.C04_eqno_off_by_one",
    "IFEM.Props.C04_eqno_wrong_witness",
    "IFEM.Props.C04_get_equation",
    "IFEM.Props.C04_dof_value_partial",
    "IFEM.Props.C04_dof_value_last_wrong"
   ],
   "note": "Also proves that getNodeAndLocalDof(eqno=true) and getDofVal violate their contracts (F1, F2)."
  },
  {
   "property": "C05",
   "status": "proved",
   "theorems": [
    "IFEM.Props.C05_tables_accepted",
    "IFEM.Props.C05_basis_exists_unique",
    "IFEM.Props.C05_assemble_vector"
   ],
   "note": ""
  },
  {
   "property": "C06",
   "status": "proved",
   "theorems": [
    "IFEM.Props.C06_assemble_matrix",
    "IFEM.Props.C06_wrong_size_rejected"
   ],
   "note": ""
  },
  {
   "property": "C07",
   "status": "proved",
   "theorems": [
    "IFEM.Props.C07_expand",
    "IFEM.Props.C07_short_rejected"
   ],
   "note": ""
  },
  {
   "property": "C08",
   "status": "proved",
   "theorems": [
    "IFEM.Props.C08_galerkin"
   ],
   "note": ""
  },
  {
   "property": "C09",
   "status": "proved",
   "theorems": [
    "IFEM.Props.C09_order_independent"
   ],
   "note": ""
  },
  {
   "property": "C10",
   "status": "proved",
   "theorems": [
    "IFEM.Props.C10_symmetric"
   ],
   "note": ""
  },
  {
   "property": "C11",
   "status": "proved",
   "theorems": [
    "IFEM.Props.C11_refines",
    "IFEM.Props.C11_accepts",
    "IFEM.Props.C11_compress",
    "IFEM.Props.C11_accumulates"
   ],
   "note": ""
  },
  {
   "property": "C12",
   "status": "proved",
   "theorems": [
    "IFEM.Props.C12_couplings",
    "IFEM.Props.C12_preassembled_never_fails",
    "IFEM.Props.C12_row_format_counterexample"
   ],
   "note": "Row-compressed (SAMG) preallocation without delayed locking excluded by hypothesis; the counterexample theorem shows that the code violates the property there (F27)."
  },
  {
   "property": "C13",
   "status": "proved",
   "theorems": [
    "IFEM.Props.C13_sparse_equals_dense",
    "IFEM.Props.C13_diagonal"
   ],
   "note": "Dense/sparse/diagonal agreement, also for repeated assembly into the same matrix; DiagMatrix needs no repeated DOF in an element (as in the property)."
  },
  {
   "property": "C14",
   "status": "proved",
   "theorems": [
    "IFEM.Props.C14_multiply",
    "IFEM.Props.C14_umfpack_counterexample",
    "IFEM.Props.C14_add_pattern",
    "IFEM.Props.C14_add_locked",
    "IFEM.Props.C14_mixed_format_counterexample",
    "IFEM.Props.C14_add_diag",
    "IFEM.Props.C14_augment",
    "IFEM.Props.C14_get_column",
    "IFEM.Props.C14_get_column_compressed",
    "IFEM.Props.C14_truncate",
    "IFEM.Props.C14_diag_multiply"
   ],
   "note": "Compressed UMFPACK products (F4) and mixed-format sums (F6) are excluded by hypotheses; counterexample theorems show the code violates the property there."
  },
  {
   "property": "C15",
   "status": "proved",
   "theorems": [
    "IFEM.Props.C15_memory_safe"
   ],
   "note": ""
  },
  {
   "property": "C16",
   "status": "proved",
   "theorems": [
    "IFEM.Props.C16_strict_weak_ordering",
    "IFEM.Props.C16_equivalence",
    "IFEM.Props.C16_set_history"
   ],
   "note": ""
  },
  {
   "property": "C17",
   "status": "proved",
   "theorems": [
    "IFEM.Props.C17_add_masters",
    "IFEM.Props.C17_update",
    "IFEM.Props.C17_merge",
    "IFEM.Props.C17_merge_iff"
   ],
   "note": ""
  },
  {
   "property": "C18",
   "status": "proved",
   "theorems": [
    "IFEM.Props.C18_resolve_chains",
    "IFEM.Props.C18_resolve_integers",
    "IFEM.Props.C18_counterexample_small_coefficients",
    "IFEM.Props.C18_cyclic_chain_diverges"
   ],
   "note": "Acyclic chains with exact arithmetic and zero truncation tolerance, or integer coefficients for the real tolerance; counterexample theorems: products of small coefficients are dropped (F42), cyclic chains never terminate."
  },
  {
   "property": "C19",
   "status": "proved",
   "theorems": [
    "IFEM.Props.C19_fix_calls",
    "IFEM.Props.C19_order_independent",
    "IFEM.Props.C19_is_fixed",
    "IFEM.Props.C19_counterexample_is_fixed_all",
    "IFEM.Props.C19_release",
    "IFEM.Props.C19_is_fixed_all_actual"
   ],
   "note": "Counterexample theorem: the query for several components at once (isFixed with all=true) looks at the first component only (F40)."
  },
  {
   "property": "C20",
   "status": "proved",
   "theorems": [
    "IFEM.Props.C20_dot",
    "IFEM.Props.C20_dot_comm",
    "IFEM.Props.C20_dot_linear",
    "IFEM.Props.C20_norm2",
    "IFEM.Props.C20_norm_L2",
    "IFEM.Props.C20_norm_inf",
    "IFEM.Props.C20_norm_inf_uniform",
    "IFEM.Props.C20_types_disagree",
    "IFEM.Props.C20_norm_inf_short"
   ],
   "note": "Counterexample theorems: with both nodes and DOFs classified, dot and normInf disagree about the type of a DOF (F49); normInf by type does not check the vector length (F50)."
  },
  {
   "property": "C21",
   "status": "proved",
   "theorems": [
    "IFEM.Props.C21_count",
    "IFEM.Props.C21_merge",
    "IFEM.Props.C21_collapse",
    "IFEM.Props.C21_connection_lost",
    "IFEM.Props.C21_collapse_refused",
    "IFEM.Props.C21_missing_node_reported_all",
    "IFEM.Props.C21_order_preserving",
    "IFEM.Props.C21_first_occurrence",
    "IFEM.Props.C21_model_numbering",
    "IFEM.Props.C21_connectivity",
    "IFEM.Props.C21_constraints_transported",
    "IFEM.Props.C21_valid_preserved",
    "IFEM.Props.C21_set_order_broken",
    "IFEM.Props.C21_missing_node_reported",
    "IFEM.Props.C21_shift"
   ],
   "note": "Counterexample theorems: renumbering in place breaks the order of the constraint set (F46); merging with several neighbours may lose a connection (F48)."
  },
  {
   "property": "C22",
   "status": "proved",
   "theorems": [
    "IFEM.Props.C22_extract_nodal",
    "IFEM.Props.C22_inject_nodal",
    "IFEM.Props.C22_nodal_extract_inject",
    "IFEM.Props.C22_nodal_inject_extract",
    "IFEM.Props.C22_nodal_inject_extract_same",
    "IFEM.Props.C22_select",
    "IFEM.Props.C22_extract_checked",
    "IFEM.Props.C22_inject_check_off_by_one",
    "IFEM.Props.C22_extract_node",
    "IFEM.Props.C22_inject_node",
    "IFEM.Props.C22_node_extract_inject",
    "IFEM.Props.C22_inject_skips",
    "IFEM.Props.C22_extract_mx_one",
    "IFEM.Props.C22_extract_mx_all",
    "IFEM.Props.C22_inject_mx_one",
    "IFEM.Props.C22_mx_extract_inject",
    "IFEM.Props.C22_inject_mx_all_wrong",
    "IFEM.Props.C22_elm_external",
    "IFEM.Props.C22_elm_internal",
    "IFEM.Props.C22_extract_checked_iff",
    "IFEM.Props.C22_inject_checked_accepts",
    "IFEM.Props.C22_inject_checked_rejects",
    "IFEM.Props.C22_checked_short",
    "IFEM.Props.C22_select_types",
    "IFEM.Props.C22_extract_node_lm",
    "IFEM.Props.C22_inject_node_lm"
   ],
   "note": "Counterexample theorems: index check off by one (F45); mixed injection does not advance between bases (F47)."
  },
  {
   "property": "C23",
   "status": "proved",
   "theorems": [
    "IFEM.Props.C23_faces",
    "IFEM.Props.C23_rigid_face",
    "IFEM.Props.C23_triangles",
    "IFEM.Props.C23_triangles_none",
    "IFEM.Props.C23_no_direction",
    "IFEM.Props.C23_spline_2d",
    "IFEM.Props.C23_spline_3d",
    "IFEM.Props.C23_plain_2d",
    "IFEM.Props.C23_plain_3d",
    "IFEM.Props.C23_one_group",
    "IFEM.Props.C23_one_stripe",
    "IFEM.Props.C23_subset",
    "IFEM.Props.C23_filter",
    "IFEM.Props.C23_recomputed"
   ],
   "note": "Freshly generated groups with a direction; counterexample theorems: recomputing appends duplicates (F55), no direction does not partition (F55), rigid face coupling (F52), triangles (F54)."
  },
  {
   "property": "C24",
   "status": "proved",
   "theorems": [
    "IFEM.Props.C24_spline_2d",
    "IFEM.Props.C24_spline_3d",
    "IFEM.Props.C24_prescribed_direction",
    "IFEM.Props.C24_lagrange_2d",
    "IFEM.Props.C24_lagrange_3d"
   ],
   "note": "Structured patches of every size, degree and thread number; constraints between patch nodes are not part of the structured grouping (see F53 in DESIGN.md)."
  },
  {
   "property": "C25",
   "status": "proved",
   "theorems": [
    "IFEM.Props.C25_increment",
    "IFEM.Props.C25_history",
    "IFEM.Props.C25_terminates",
    "IFEM.Props.C25_max_steps",
    "IFEM.Props.C25_finished",
    "IFEM.Props.C25_refused_finished",
    "IFEM.Props.C25_multi_steps"
   ],
   "note": ""
  },
  {
   "property": "C26",
   "status": "proved",
   "theorems": [
    "IFEM.Props.C26_cutback",
    "IFEM.Props.C26_terminates"
   ],
   "note": ""
  },
  {
   "property": "C27",
   "status": "partial",
   "theorems": [
    "IFEM.Props.C27_restart_partial",
    "IFEM.Props.C27_restart_table_partial",
    "IFEM.Props.C27_counterexample_start_time",
    "IFEM.Props.C27_counterexample_cutback",
    "IFEM.Props.C27_counterexample_iterations"
   ],
   "note": "Proved without step table (any cut-backs, CFL control) and with table (start time 0, no cut-backs, no CFL control), in both cases without iteration-based control. Counterexample theorems show that the code violates the property otherwise (F19, F32, F33)."
  },
  {
   "property": "C28",
   "status": "proved",
   "theorems": [
    "IFEM.Props.C28_bdf1",
    "IFEM.Props.C28_bdf2",
    "IFEM.Props.C28_counterexample_second_step",
    "IFEM.Props.C28_stationary",
    "IFEM.Props.C28_extrapolate",
    "IFEM.Props.C28_bdfd2_order1",
    "IFEM.Props.C28_bdfd2_order2",
    "IFEM.Props.C28_element_matrices"
   ],
   "note": "Second step of the order 2 scheme with another size than the first one excluded by hypothesis; the counterexample theorem shows that the coefficients are wrong there (F17)."
  },
  {
   "property": "C29",
   "status": "proved",
   "theorems": [
    "IFEM.Props.C29_predictor",
    "IFEM.Props.C29_corrector",
    "IFEM.Props.C29_generalised_alpha",
    "IFEM.Props.C29_nonlinear",
    "IFEM.Props.C29_hht",
    "IFEM.Props.C29_counterexample_hht"
   ],
   "note": "HHT convergence already at iteration 0 is excluded by hypothesis; the counterexample theorem shows that the relations fail there (F22)."
  },
  {
   "property": "C30",
   "status": "proved",
   "theorems": [
    "IFEM.Props.C30_newmark",
    "IFEM.Props.C30_newmark_step",
    "IFEM.Props.C30_generalised_alpha",
    "IFEM.Props.C30_parameters",
    "IFEM.Props.C30_hht_corrector",
    "IFEM.Props.C30_hht_step",
    "IFEM.Props.C30_nonlinear_step",
    "IFEM.Props.C30_counterexample_negative_damping"
   ],
   "note": "Negative Rayleigh coefficients are excluded by hypothesis; the counterexample theorem shows that the tangent is inconsistent there (F25). The HHT theorem assumes that no separate element load vector is used."
  },
  {
   "property": "C31",
   "status": "proved",
   "theorems": [
    "IFEM.Props.C31_push",
    "IFEM.Props.C31_history"
   ],
   "note": ""
  },
  {
   "property": "C32",
   "status": "proved",
   "theorems": [
    "IFEM.Props.C32_slow",
    "IFEM.Props.C32_verdict",
    "IFEM.Props.C32_complete",
    "IFEM.Props.C32_verdict_dynamic",
    "IFEM.Props.C32_counterexample_interleaved",
    "IFEM.Props.C32_counterexample_nan_increment"
   ],
   "note": "One solver at a time; the counterexample theorem shows that interleaved solvers corrupt each other's convergence check (F20)."
  },
  {
   "property": "C33",
   "status": "proved",
   "theorems": [
    "IFEM.Props.C33_best_step",
    "IFEM.Props.C33_line_search",
    "IFEM.Props.C33_no_line_search",
    "IFEM.Props.C33_counterexample_reported",
    "IFEM.Props.C33_counterexample_nan"
   ],
   "note": "Counterexample theorems: the reported length is not exact (F21); a zero initial energy gives a NaN step length (F34)."
  },
  {
   "property": "C34",
   "status": "proved",
   "theorems": [
    "IFEM.Props.C34_parse_integers",
    "IFEM.Props.C34_counterexample_comma_after_range"
   ],
   "note": "A comma after a range is not part of the grammar; the counterexample theorem shows that it gives a spurious zero (F10)."
  },
  {
   "property": "C35",
   "status": "proved",
   "theorems": [
    "IFEM.Props.C35_digits",
    "IFEM.Props.C35_dirs"
   ],
   "note": ""
  },
  {
   "property": "C36",
   "status": "proved",
   "theorems": [
    "IFEM.Props.C36_polynomials",
    "IFEM.Props.C36_values",
    "IFEM.Props.C36_kronecker",
    "IFEM.Props.C36_reproduction",
    "IFEM.Props.C36_unity",
    "IFEM.Props.C36_derivatives",
    "IFEM.Props.C36_out_of_range",
    "IFEM.Props.C36_uniform",
    "IFEM.Props.C36_interpolator",
    "IFEM.Props.C36_interpolation_matrix",
    "IFEM.Props.C36_partial_derivatives"
   ],
   "note": ""
  },
  {
   "property": "C37",
   "status": "proved",
   "theorems": [
    "IFEM.Props.C37_lines",
    "IFEM.Props.C37_quads",
    "IFEM.Props.C37_hexes",
    "IFEM.Props.C37_quads_conforming",
    "IFEM.Props.C37_quads_neighbours",
    "IFEM.Props.C37_hexes_conforming",
    "IFEM.Props.C37_triangles"
   ],
   "note": ""
  },
  {
   "property": "C38",
   "status": "proved",
   "theorems": [
    "IFEM.Props.C38_reactions"
   ],
   "note": ""
  },
  {
   "property": "C39",
   "status": "partial",
   "theorems": [
    "IFEM.Props.C39_prescribed_reactions_partial",
    "IFEM.Props.C39_overwrite_counterexample"
   ],
   "note": "Proved for elements with at most one constrained DOF; the counterexample theorem shows the code overwrites contributions otherwise (F3)."
  },
  {
   "property": "C40",
   "status": "proved",
   "theorems": [
    "IFEM.Props.C40_rhs_only"
   ],
   "note": ""
  },
  {
   "property": "C41",
   "status": "proved",
   "theorems": [
    "IFEM.Props.C41_nodal_load",
    "IFEM.Props.C41_dof_load",
    "IFEM.Props.C41_dof_load_rejected",
    "IFEM.Props.C41_global_load"
   ],
   "note": ""
  },
  {
   "property": "C42",
   "status": "proved",
   "theorems": [
    "IFEM.Props.C42_solution_vector",
    "IFEM.Props.C42_round_trips"
   ],
   "note": ""
  },
  {
   "property": "C43",
   "status": "proved",
   "theorems": [
    "IFEM.Props.C43_apply_dirichlet"
   ],
   "note": ""
  },
  {
   "property": "C44",
   "status": "proved",
   "theorems": [
    "IFEM.Props.C44_series_ends_hit",
    "IFEM.Props.C44_counterexample_cutback"
   ],
   "note": "For runs without cut-backs; the counterexample theorem shows that a cut-back makes the code jump over an end (F31)."
  },
  {
   "property": "C45",
   "status": "partial",
   "theorems": [
    "IFEM.Props.C45_copy_partial",
    "IFEM.Props.C45_copy_no_table_partial",
    "IFEM.Props.C45_counterexample"
   ],
   "note": "Only before the first series is completed or without table; the counterexample theorem shows that the code violates the property otherwise (F18)."
  },
  {
   "property": "C46",
   "status": "proved",
   "theorems": [
    "IFEM.Props.C46_increments_once",
    "IFEM.Props.C46_linear"
   ],
   "note": ""
  },
  {
   "property": "C47",
   "status": "proved",
   "theorems": [
    "IFEM.Props.C47_round_trip",
    "IFEM.Props.C47_counterexample_existing_name"
   ],
   "note": "New names only; the counterexample theorem shows that existing entries are silently kept (F36)."
  },
  {
   "property": "C48",
   "status": "proved",
   "theorems": [
    "IFEM.Props.C48_find_closest",
    "IFEM.Props.C48_merge",
    "IFEM.Props.C48_merge_values",
    "IFEM.Props.C48_interleave",
    "IFEM.Props.C48_gather",
    "IFEM.Props.C48_counterexample_gather_partial_block"
   ],
   "note": "Partial blocks in gather are excluded by hypothesis; the counterexample theorem shows that values outside the input are read there (F15)."
  },
  {
   "property": "C49",
   "status": "proved",
   "theorems": [
    "IFEM.Props.C49_geometric",
    "IFEM.Props.C49_aux_mirror",
    "IFEM.Props.C49_centred",
    "IFEM.Props.C49_counterexample_centred",
    "IFEM.Props.C49_c5",
    "IFEM.Props.C49_c5_knots",
    "IFEM.Props.C49_counterexample_c5"
   ],
   "note": "Counterexample theorems: centred grading of an interval not starting at zero (F38), fifth order grading of a part of the interval (F39)."
  },
  {
   "property": "C50",
   "status": "proved",
   "theorems": [
    "IFEM.Props.C50_two_point",
    "IFEM.Props.C50_three_point",
    "IFEM.Props.C50_fixed_slave",
    "IFEM.Props.C50_periodicity",
    "IFEM.Props.C50_rigid",
    "IFEM.Props.C50_rigid_plane",
    "IFEM.Props.C50_nodal",
    "IFEM.Props.C50_counterexample_periodic_twice",
    "IFEM.Props.C50_counterexample_override",
    "IFEM.Props.C50_prescribe",
    "IFEM.Props.C50_counterexample_digit_zero",
    "IFEM.Props.C50_local_axes",
    "IFEM.Props.C50_periodicity_refused"
   ],
   "note": "Slaves which are constrained already are excluded for two/three-point and periodic couplings; counterexample theorems: existing constraints are corrupted there (F41), overriding a prescribed value uses an erased iterator (F11), digit zero is taken as a component (F43). Coefficients within the code's truncation tolerance of zero, but not zero, are excluded."
  },
  {
   "property": "C51",
   "status": "proved",
   "theorems": [
    "IFEM.Props.C51_build_status",
    "IFEM.Props.C51_conflict_detected",
    "IFEM.Props.C51_duplicate_elements",
    "IFEM.Props.C51_tables_represent_model",
    "IFEM.Props.C51_solutions",
    "IFEM.Props.C51_tables_fit",
    "IFEM.Props.C51_unresolved_chain_dropped",
    "IFEM.Props.C51_fixed_link_substituted"
   ],
   "note": "Chain pointers set as by resolveMPCchains and linked masters not fixed (hypotheses); counterexample theorems show that the code violates the property otherwise (F26, F44)."
  },
  {
   "property": "C52",
   "status": "proved",
   "theorems": [
    "IFEM.Props.C52_total_reaction",
    "IFEM.Props.C52_node_reaction",
    "IFEM.Props.C52_overlapping_sets",
    "IFEM.Props.C52_have_reaction",
    "IFEM.Props.C52_norm_react"
   ],
   "note": ""
  },
  {
   "property": "C53",
   "status": "partial",
   "theorems": [
    "IFEM.Props.C53_equations",
    "IFEM.Props.C53_component_partial",
    "IFEM.Props.C53_missing_component"
   ],
   "note": "Restricted to a local DOF: proved if all nodes have that DOF; the counterexample theorem shows that the code returns too many equations otherwise (F14)."
  },
  {
   "property": "C54",
   "status": "proved",
   "theorems": [
    "IFEM.Props.C54_lr",
    "IFEM.Props.C54_lagrange",
    "IFEM.Props.C54_springs_on_one_node",
    "IFEM.Props.C54_master_outside_patch"
   ],
   "note": "Nodes with distinct global numbers and masters within the patch (hypotheses); counterexample theorems: one-noded elements on one node (F56), masters outside the patch (F57)."
  },
  {
   "property": "C55",
   "status": "proved",
   "theorems": [
    "IFEM.Props.C55_curve",
    "IFEM.Props.C55_surface",
    "IFEM.Props.C55_volume",
    "IFEM.Props.C55_curve_support",
    "IFEM.Props.C55_surface_support",
    "IFEM.Props.C55_volume_support",
    "IFEM.Props.C55_empty"
   ],
   "note": ""
  },
  {
   "property": "C56",
   "status": "proved",
   "theorems": [
    "IFEM.Props.C56_edge_nodes",
    "IFEM.Props.C56_face_nodes",
    "IFEM.Props.C56_volume_edge_nodes",
    "IFEM.Props.C56_corner2",
    "IFEM.Props.C56_corner3",
    "IFEM.Props.C56_swapped_surface",
    "IFEM.Props.C56_edge_elements",
    "IFEM.Props.C56_face_elements"
   ],
   "note": ""
  },
  {
   "property": "C57",
   "status": "proved",
   "theorems": [
    "IFEM.Props.C57_edges",
    "IFEM.Props.C57_edges_bijective",
    "IFEM.Props.C57_thick_reversed",
    "IFEM.Props.C57_faces",
    "IFEM.Props.C57_faces_bijective",
    "IFEM.Props.C57_swapped_volume"
   ],
   "note": ""
  },
  {
   "property": "C58",
   "status": "proved",
   "theorems": [
    "IFEM.Props.C58_step",
    "IFEM.Props.C58_counterexample_restart",
    "IFEM.Props.C58_order",
    "IFEM.Props.C58_embedded_order",
    "IFEM.Props.C58_error_control",
    "IFEM.Props.C58_terminates",
    "IFEM.Props.C58_counterexample_tolerance",
    "IFEM.Props.C58_names"
   ],
   "note": "Tolerance below one and coefficient matrix assembled in step one (hypotheses); counterexample theorems: restart with a reused matrix (F64), tolerance of one or more (F65)."
  },
  {
   "property": "C59",
   "status": "proved",
   "theorems": [
    "IFEM.Props.C59_steps",
    "IFEM.Props.C59_explicit",
    "IFEM.Props.C59_implicit",
    "IFEM.Props.C59_counterexample_restart",
    "IFEM.Props.C59_counterexample_double_free",
    "IFEM.Props.C59_counterexample_initial",
    "IFEM.Props.C59_explicit_exact",
    "IFEM.Props.C59_implicit_exact",
    "IFEM.Props.C59_explicit_order",
    "IFEM.Props.C59_implicit_order",
    "IFEM.Props.C59_orders"
   ],
   "note": "Constant step size and coefficient matrix; counterexample theorems: restart (F66), double free after an incomplete step (F63), implicit methods with initial conditions (F67)."
  },
  {
   "property": "C60",
   "status": "proved",
   "theorems": [
    "IFEM.Props.C60_access",
    "IFEM.Props.C60_unique",
    "IFEM.Props.C60_set",
    "IFEM.Props.C60_resize_clear",
    "IFEM.Props.C60_multiply",
    "IFEM.Props.C60_multiply_add",
    "IFEM.Props.C60_multiply_mismatch",
    "IFEM.Props.C60_mulVec",
    "IFEM.Props.C60_gemv",
    "IFEM.Props.C60_mulVec_mismatch",
    "IFEM.Props.C60_add",
    "IFEM.Props.C60_scale",
    "IFEM.Props.C60_outer",
    "IFEM.Props.C60_transpose",
    "IFEM.Props.C60_getRow",
    "IFEM.Props.C60_getColumn",
    "IFEM.Props.C60_fillColumn",
    "IFEM.Props.C60_fillRow",
    "IFEM.Props.C60_fillBlock",
    "IFEM.Props.C60_addBlock",
    "IFEM.Props.C60_extractBlock",
    "IFEM.Props.C60_diag",
    "IFEM.Props.C60_augmentCols",
    "IFEM.Props.C60_augment_mismatch",
    "IFEM.Props.C60_augmentRows",
    "IFEM.Props.C60_expandRows_grow",
    "IFEM.Props.C60_expandRows_shrink",
    "IFEM.Props.C60_expandRows_empty",
    "IFEM.Props.C60_expandRows_endless",
    "IFEM.Props.C60_det1",
    "IFEM.Props.C60_det2",
    "IFEM.Props.C60_det3",
    "IFEM.Props.C60_det_large",
    "IFEM.Props.C60_inverse1",
    "IFEM.Props.C60_inverse2",
    "IFEM.Props.C60_inverse3",
    "IFEM.Props.C60_inverse_singular",
    "IFEM.Props.C60_inverse_error_value",
    "IFEM.Props.C60_isSymmetric",
    "IFEM.Props.C60_rowsum",
    "IFEM.Props.C60_colsum",
    "IFEM.Props.C60_trace",
    "IFEM.Props.C60_trace_wide",
    "IFEM.Props.C60_blas_same",
    "IFEM.Props.C60_blas_missed",
    "IFEM.Props.C60_blas_outside"
   ],
   "note": "Exact arithmetic, implementation without BLAS; counterexample theorems: error value of the determinant (F68), expandRows without rows (F69), trace of wide matrices (F70), strided BLAS operations (F71)."
  },
  {
   "property": "C61",
   "status": "proved",
   "theorems": [
    "IFEM.Props.C61_hessian_refused",
    "IFEM.Props.C61_hessian2_refused",
    "IFEM.Props.C61_pullback_exists",
    "IFEM.Props.C61_jacobian",
    "IFEM.Props.C61_jacobian_singular",
    "IFEM.Props.C61_jacobian_manifold",
    "IFEM.Props.C61_gmat_square",
    "IFEM.Props.C61_counterexample_reused",
    "IFEM.Props.C61_counterexample_line",
    "IFEM.Props.C61_counterexample_curved",
    "IFEM.Props.C61_jacobian_edge",
    "IFEM.Props.C61_jacobian_face2",
    "IFEM.Props.C61_jacobian_face_shell",
    "IFEM.Props.C61_jacobian_face3",
    "IFEM.Props.C61_jacobian_face_singular",
    "IFEM.Props.C61_hessian",
    "IFEM.Props.C61_compact_hessian1",
    "IFEM.Props.C61_compact_hessian2",
    "IFEM.Props.C61_compact_hessian3",
    "IFEM.Props.C61_compact_hessian_refused",
    "IFEM.Props.C61_jacobian_gradient",
    "IFEM.Props.C61_det_gradient",
    "IFEM.Props.C61_gmat",
    "IFEM.Props.C61_hessian2",
    "IFEM.Props.C61_pull_back"
   ],
   "note": "Exact real arithmetic, for functions of class C1 (gradients), C2 (Hessians) and C3 (third derivatives, constant Jacobian); counterexample theorems for curved mappings (F72), reused arguments (F73) and the determinant gradient in 1D (F74)."
  },
  {
   "property": "C62",
   "status": "proved",
   "theorems": [
    "IFEM.Props.C62_jacobian",
    "IFEM.Props.C62_jacobian_separate",
    "IFEM.Props.C62_face",
    "IFEM.Props.C62_face_separate",
    "IFEM.Props.C62_interface",
    "IFEM.Props.C62_hessian",
    "IFEM.Props.C62_hessian_separate",
    "IFEM.Props.C62_piola",
    "IFEM.Props.C62_piola_factor"
   ],
   "note": "Exact real arithmetic; C62_piola_factor gives the effect of the wrong determinant passed on boundaries (F76)."
  },
  {
   "property": "C63",
   "status": "proved",
   "theorems": [
    "IFEM.Props.C63_main",
    "IFEM.Props.C63_dense",
    "IFEM.Props.C63_sparse",
    "IFEM.Props.C63_solution",
    "IFEM.Props.C63_sum",
    "IFEM.Props.C63_unflagged_counterexample",
    "IFEM.Props.C63_sparse_counterexample",
    "IFEM.Props.C63_diag_add",
    "IFEM.Props.C63_diag_solve",
    "IFEM.Props.C63_diag_singular"
   ],
   "note": "Counterexample theorems: unflagged matrices are not added (F77), the pivot of an equation without any element has no place in a preallocated pattern (F82), zero pivots in the diagonal solver (F80)."
  },
  {
   "property": "C64",
   "status": "proved",
   "theorems": [
    "IFEM.Props.C64_cache",
    "IFEM.Props.C64_cache_volume",
    "IFEM.Props.C64_surface_tables",
    "IFEM.Props.C64_tables",
    "IFEM.Props.C64_no_rule",
    "IFEM.Props.C64_number_of_points",
    "IFEM.Props.C64_parameters",
    "IFEM.Props.C64_curve",
    "IFEM.Props.C64_surface",
    "IFEM.Props.C64_volume"
   ],
   "note": "Exact real arithmetic in the loops; the tabulated numbers are taken with the rounding error of the conversion to double. The basis function values and the user integrand are arbitrary functions of the parameters."
  },
  {
   "property": "C65",
   "status": "proved",
   "theorems": [
    "IFEM.Props.C65_values",
    "IFEM.Props.C65_gauss",
    "IFEM.Props.C65_two_points_counterexample",
    "IFEM.Props.C65_lobatto_points",
    "IFEM.Props.C65_lobatto",
    "IFEM.Props.C65_lobatto_fixed",
    "IFEM.Props.C65_lobatto_small",
    "IFEM.Props.C65_derivatives"
   ],
   "note": "Exact real arithmetic, eigenvalue solver specified by the characteristic polynomial (parameter). That the Lobatto iteration converges to all the different zeros is not claimed; counterexample theorem: two-point Gauss rule (F85)."
  },
  {
   "property": "C66",
   "status": "proved",
   "theorems": [
    "IFEM.DomNum.C66_all_schedules",
    "IFEM.DomNum.C66_no_deadlock",
    "IFEM.DomNum.C66_same_number",
    "IFEM.DomNum.C66_same_iff",
    "IFEM.DomNum.C66_one_to_N",
    "IFEM.DomNum.C66_deadlock_counterexample",
    "IFEM.DomPart.C66_partition_all_schedules"
   ],
   "note": "Blocking sends and receives between pairs of processes, with and without buffering, and broadcast as a sequence of sends; one block of unknowns. Master on a lower rank than slave (hypothesis); counterexample theorem: deadlock otherwise (F93)."
  },
  {
   "property": "C67",
   "status": "proved",
   "theorems": [
    "IFEM.DomGeom.C67_subdomains",
    "IFEM.DomGeom.C67_subdomains_cover",
    "IFEM.DomGeom.C67_subdomains_overlap",
    "IFEM.DomGeom.C67_subdomains_fits",
    "IFEM.DomGeom.C67_subdomains_counterexample",
    "IFEM.DomGeom.C67_overlap_counterexample",
    "IFEM.DomGeom.C67_faces",
    "IFEM.DomGeom.C67_faces_counterexample",
    "IFEM.DomGeom.C67_edges"
   ],
   "note": "Patches whose third direction is not swapped; swapped face directions only on square faces; counterexample theorems: rectangular faces (F95), subdomains without overlap or with too large overlap (F94)."
  },
  {
   "property": "C68",
   "status": "proved",
   "theorems": [
    "IFEM.Tens.C68_components",
    "IFEM.Tens.C68_representation",
    "IFEM.Tens.C68_construction",
    "IFEM.Tens.C68_products",
    "IFEM.Tens.C68_vectors",
    "IFEM.Tens.C68_outer",
    "IFEM.Tens.C68_sums",
    "IFEM.Tens.C68_sums_symmetric",
    "IFEM.Tens.C68_inner",
    "IFEM.Tens.C68_inner_counterexample",
    "IFEM.Tens.C68_transpose",
    "IFEM.Tens.C68_shift",
    "IFEM.Tens.C68_trace_det",
    "IFEM.Tens.C68_assign",
    "IFEM.Tens.C68_assign_counterexample",
    "IFEM.Tens.C68_normal",
    "IFEM.Tens.C68_tangents",
    "IFEM.Tens.C68_inverse",
    "IFEM.Tens.C68_inverse_symmetric",
    "IFEM.Tens.C68_transform",
    "IFEM.Tens.C68_cauchy_green",
    "IFEM.Tens.C68_plane_counterexample",
    "IFEM.Tens.C68_norms",
    "IFEM.Tens.C68_vonMises",
    "IFEM.Tens.C68_product_symmetric",
    "IFEM.Tens.C68_directions",
    "IFEM.Tens.C68_directions_eigen",
    "IFEM.Tens.C68_directions_counterexample",
    "IFEM.Tens.C68_principal",
    "IFEM.Tens.C68_principal_plane",
    "IFEM.Tens.C68_principal_counterexample",
    "IFEM.Tens.C68_rotation",
    "IFEM.Tens.C68_rodrigues",
    "IFEM.Tens.C68_rotVec",
    "IFEM.Tens.C68_rotVec_counterexample",
    "IFEM.Tens.C68_rotate",
    "IFEM.Tens.C68_rotate_plane",
    "IFEM.Tens.C68_rotate_zero",
    "IFEM.Tens.C68_one_dimension",
    "IFEM.Tens.C68_vectors_plane"
   ],
   "note": "Exact real arithmetic. Hypotheses exclude vectors shorter than 1e-16; the closed-form principal values exclude a negligible deviator, principal directions are eigenvectors only if the iterations leave no off-diagonal term; counterexample theorems for both, for the inner product, assignment, the plane rotation vector and plane tensors with the component 33 (F98-F104). The LAPACK version of principal is not modelled."
  },
  {
   "property": "C69",
   "status": "proved",
   "theorems": [
    "IFEM.Norms.C69_assemble",
    "IFEM.Norms.C69_direct",
    "IFEM.Norms.C69_stored",
    "IFEM.Norms.C69_same",
    "IFEM.Norms.C69_order",
    "IFEM.Norms.C69_pythagoras",
    "IFEM.Norms.C69_place",
    "IFEM.Norms.C69_skipped",
    "IFEM.Norms.C69_forces",
    "IFEM.Norms.C69_final"
   ],
   "note": "Exact real arithmetic. No norm group may be empty (counterexample theorem, F105)."
  },
  {
   "property": "C70",
   "status": "proved",
   "theorems": [
    "IFEM.Adapt.C70_sorted",
    "IFEM.Adapt.C70_largest",
    "IFEM.Adapt.C70_percentage",
    "IFEM.Adapt.C70_symmetrized",
    "IFEM.Adapt.C70_limit_maximum",
    "IFEM.Adapt.C70_limit_minimum",
    "IFEM.Adapt.C70_limit_average",
    "IFEM.Adapt.C70_threshold",
    "IFEM.Adapt.C70_dorfel",
    "IFEM.Adapt.C70_refined",
    "IFEM.Adapt.C70_decision",
    "IFEM.Adapt.C70_reference",
    "IFEM.Adapt.C70_loop",
    "IFEM.Adapt.C70_loop_bound",
    "IFEM.Adapt.C70_failure_not_reported",
    "IFEM.Adapt.C70_functions",
    "IFEM.Adapt.C70_extremes",
    "IFEM.Adapt.C70_first_element",
    "IFEM.Adapt.C70_dorfel_counterexample"
   ],
   "note": "Exact arithmetic in an ordered field with ceiling. Element 0 with an error equal to the limit is left out (F106, in the statements); a failing refinement is not reported by the return value (F107, theorem)."
  },
  {
   "property": "C71",
   "status": "proved",
   "theorems": [
    "IFEM.Fn.C71_scalar_derivative",
    "IFEM.Fn.C71_ramp",
    "IFEM.Fn.C71_step_dirac",
    "IFEM.Fn.C71_space_derivative",
    "IFEM.Fn.C71_gradient",
    "IFEM.Fn.C71_second_symmetric",
    "IFEM.Fn.C71_second_derivative",
    "IFEM.Fn.C71_hessian",
    "IFEM.Fn.C71_time_derivative",
    "IFEM.Fn.C71_mixed_derivative",
    "IFEM.Fn.C71_time_derivative_counterexample",
    "IFEM.Fn.C71_quadratic",
    "IFEM.Fn.C71_rotation",
    "IFEM.Fn.C71_rotation_static",
    "IFEM.Fn.C71_steps",
    "IFEM.Fn.C71_interpolate",
    "IFEM.Fn.C71_step_xy_counterexample",
    "IFEM.Fn.C71_scalar_zero",
    "IFEM.Fn.C71_zero",
    "IFEM.Fn.C71_zero_counterexample",
    "IFEM.Fn.C71_scalar_constant",
    "IFEM.Fn.C71_constant",
    "IFEM.Fn.C71_prescribed",
    "IFEM.Fn.C71_prescribed_tangent",
    "IFEM.Fn.C71_constant_counterexample",
    "IFEM.Fn.C71_example",
    "IFEM.Fn.C71_linear",
    "IFEM.Fn.C71_table_outside",
    "IFEM.Fn.C71_table_between",
    "IFEM.Fn.C71_table_interpolates",
    "IFEM.Fn.C71_table_bounds",
    "IFEM.Fn.C71_table_derivative",
    "IFEM.Fn.C71_table_vector",
    "IFEM.Fn.C71_table_read",
    "IFEM.Fn.C71_table_columns",
    "IFEM.Fn.C71_table_stops",
    "IFEM.Fn.C71_table_tolerance_counterexample",
    "IFEM.Fn.C71_table_example"
   ],
   "note": "Exact real arithmetic; expression, Chebyshev, field and space-Dirac functions not modelled. Exceptions are in the statements, with counterexample theorems: step and Dirac functions claim to be constant (F109), rotations report no time derivative (F111), tables of zeros (F110), tolerance of the reader (F112), StepXY lower bound (F113)."
  },
  {
   "property": "C72",
   "status": "proved",
   "theorems": [
    "IFEM.Props.C72_compatible_mass",
    "IFEM.Props.C72_compatible_advection",
    "IFEM.Props.C72_compatible_gradient",
    "IFEM.Props.C72_compatible_convection",
    "IFEM.Props.C72_compatible_laplacian",
    "IFEM.Props.C72_compatible_convection_coded",
    "IFEM.Props.C72_compatible_source",
    "IFEM.Props.C72_compatible_residual_gradient",
    "IFEM.Props.C72_compatible_residual_laplacian",
    "IFEM.Props.C72_compatible_residual_convection",
    "IFEM.Props.C72_advection",
    "IFEM.Props.C72_advection_forms",
    "IFEM.Props.C72_convection",
    "IFEM.Props.C72_residual_convection",
    "IFEM.Props.C72_compatible_convection_defect",
    "IFEM.Props.C72_compatible_laplacian_defect",
    "IFEM.Props.C72_residual_advection_defect",
    "IFEM.Props.C72_mass",
    "IFEM.Props.C72_stress",
    "IFEM.Props.C72_laplacian",
    "IFEM.Props.C72_laplacian_coeff",
    "IFEM.Props.C72_constraint",
    "IFEM.Props.C72_divergence",
    "IFEM.Props.C72_gradient",
    "IFEM.Props.C72_source",
    "IFEM.Props.C72_residual_divergence",
    "IFEM.Props.C72_residual_gradient",
    "IFEM.Props.C72_residual_laplacian",
    "IFEM.Props.C72_grad_vector",
    "IFEM.Props.C72_residual_advection",
    "IFEM.Props.C72_tangent",
    "IFEM.Props.C72_residual_matches"
   ],
   "note": "Exact field arithmetic. The compatible convection is proved for the convective form and the compatible Laplacian for index tables that number the diagonal blocks first; the defects F114, F115, F116 are example theorems and exceptions of the statement."
  },
  {
   "property": "C73",
   "status": "proved",
   "theorems": [
    "IFEM.Props.C73_setup",
    "IFEM.Props.C73_newton",
    "IFEM.Props.C73_rhs",
    "IFEM.Props.C73_refuses",
    "IFEM.Props.C73_upper_counterexample",
    "IFEM.Props.C73_guard_counterexample",
    "IFEM.Props.C73_twice_counterexample",
    "IFEM.Props.C73_numbering"
   ],
   "note": "Exact ring arithmetic. The off-diagonal sizes are proved unless there are three or more blocks and exactly all blocks above the diagonal (F117, refuted by example); the element matrix and vector are proved for any block contents of the right sizes."
  },
  {
   "property": "C74",
   "status": "proved",
   "theorems": [
    "IFEM.Props.C74_system",
    "IFEM.Props.C74_projection",
    "IFEM.Props.C74_reproduction",
    "IFEM.Props.C74_split",
    "IFEM.Props.C74_points",
    "IFEM.Props.C74_points_counterexample",
    "IFEM.Props.C74_grid",
    "IFEM.Props.C74_parameter",
    "IFEM.Props.C74_example",
    "IFEM.Props.C74_threads_counterexample",
    "IFEM.Props.C74_system_first",
    "IFEM.Props.C74_projection_first"
   ],
   "note": "Exact arithmetic in an ordered field; the equation solver is any function that returns nothing but solutions. Exceptions are refuted by example or characterised (F120-F122)."
  },
  {
   "property": "C75",
   "status": "proved",
   "theorems": [
    "IFEM.Props.C75_complete",
    "IFEM.Props.C75_level",
    "IFEM.Props.C75_restart",
    "IFEM.Props.C75_outcome",
    "IFEM.Props.C75_stationary",
    "IFEM.Props.C75_latest",
    "IFEM.Props.C75_restart_codes",
    "IFEM.Props.C75_stationary_level",
    "IFEM.Props.C75_kept",
    "IFEM.Props.C75_timeStep",
    "IFEM.Props.C75_levels_counterexample",
    "IFEM.Props.C75_stale_counterexample",
    "IFEM.Props.C75_writers_counterexample"
   ],
   "note": "The simulator is a parameter of the model. Restart is proved under the hypothesis that serialized states are restored up to indistinguishable ones, which is proved for the library's time stepping without step table and iteration-based control (the other cases fail, see C27). F123 and F124 are shown by example."
  },
  {
   "property": "C76",
   "status": "proved",
   "theorems": [
    "IFEM.Props.C76_times",
    "IFEM.Props.C76_order",
    "IFEM.Props.C76_geometry",
    "IFEM.Props.C76_codes",
    "IFEM.Props.C76_terminates",
    "IFEM.Props.C76_restart_basis",
    "IFEM.Props.C76_counterexample_no_steps",
    "IFEM.Props.C76_initial",
    "IFEM.Props.C76_clock_table",
    "IFEM.Props.C76_table",
    "IFEM.Props.C76_counterexample_no_table",
    "IFEM.Props.C76_counterexample_max_step",
    "IFEM.Props.C76_counterexample_advance",
    "IFEM.Props.C76_counterexample_basis",
    "IFEM.Props.C76_counterexample_no_cycles"
   ],
   "note": "The simulator is a parameter of the model; it is assumed to advance, store and restore its solution as documented. Clock claims are proved for time stepping with a step table; without one they are refuted by example (F126), as are the other exceptions (F127-F130)."
  },
  {
   "property": "C77",
   "status": "proved",
   "theorems": [
    "IFEM.Props.C77_success",
    "IFEM.Props.C77_failure",
    "IFEM.Props.C77_truth",
    "IFEM.Props.C77_check",
    "IFEM.Props.C77_relaxed",
    "IFEM.Props.C77_weights",
    "IFEM.Props.C77_iterates",
    "IFEM.Props.C77_plain",
    "IFEM.Props.C77_linear",
    "IFEM.Props.C77_aitken",
    "IFEM.Props.C77_history",
    "IFEM.Props.C77_defined",
    "IFEM.Props.C77_counterexample_unconverged",
    "IFEM.Props.C77_counterexample_aitken",
    "IFEM.Props.C77_counterexample_relaxed",
    "IFEM.Props.C77_limit"
   ],
   "note": "Exact field arithmetic; the two simulators are parameters. Exceptions refuted by example or characterised (F133-F135)."
  },
  {
   "property": "C78",
   "status": "proved",
   "theorems": [
    "IFEM.BCache.C78_clear_all",
    "IFEM.BCache.C78_param",
    "IFEM.BCache.C78_param_lagrange",
    "IFEM.BCache.C78_position",
    "IFEM.BCache.C78_position_volume",
    "IFEM.BCache.C78_runs",
    "IFEM.BCache.C78_lost_derivatives",
    "IFEM.BCache.C78_stale_reduced",
    "IFEM.BCache.C78_missing_rule",
    "IFEM.BCache.C78_reduced_order",
    "IFEM.BCache.C78_shared_quadrature",
    "IFEM.BCache.C78_threads_first",
    "IFEM.BCache.C78_refused",
    "IFEM.BCache.C78_no_integrand",
    "IFEM.BCache.C78_surface",
    "IFEM.BCache.C78_volume",
    "IFEM.BCache.C78_reduced",
    "IFEM.BCache.C78_lagrange",
    "IFEM.BCache.C78_lagrange_volume"
   ],
   "note": "Evaluation of basis functions is a parameter; computeBasisGrid is assumed to run through the first direction fastest. Steady histories only (Gauss rules and reduced integration change only with a clearing); the other histories are refuted by example (F136-F141)."
  },
  {
   "property": "C79",
   "status": "proved",
   "theorems": [
    "IFEM.PatchGen.C79_volume",
    "IFEM.PatchGen.C79_surface",
    "IFEM.PatchGen.C79_curve",
    "IFEM.PatchGen.C79_serial",
    "IFEM.PatchGen.C79_sets_edges",
    "IFEM.PatchGen.C79_frame_wrong",
    "IFEM.PatchGen.C79_sets_curve",
    "IFEM.PatchGen.C79_no_sets",
    "IFEM.PatchGen.C79_few_patches",
    "IFEM.PatchGen.C79_sets_volume",
    "IFEM.PatchGen.C79_sets_surface",
    "IFEM.PatchGen.C79_fills_volume",
    "IFEM.PatchGen.C79_fills_surface",
    "IFEM.PatchGen.C79_fills_curve",
    "IFEM.PatchGen.C79_printed_volume",
    "IFEM.PatchGen.C79_printed_surface",
    "IFEM.PatchGen.C79_printed_digits",
    "IFEM.PatchGen.C79_corner_ignored",
    "IFEM.PatchGen.C79_close_elsewhere"
   ],
   "note": "Exact field arithmetic; the number format and the joining of patches are parameters. The edge sets of volumes are proved in the numbering of the generator and refuted in the numbering of the patches (F142); other exceptions by example (F143-F147)."
  },
  {
   "property": "C80",
   "status": "proved",
   "theorems": [
    "IFEM.Props.C80_function_alpha",
    "IFEM.Immersed.C80_quadtree",
    "IFEM.Immersed.C80_no_rule",
    "IFEM.Immersed.C80_cells",
    "IFEM.Immersed.C80_points",
    "IFEM.Immersed.C80_exact",
    "IFEM.Immersed.C80_inside",
    "IFEM.Immersed.C80_outside",
    "IFEM.Immersed.C80_area",
    "IFEM.Immersed.C80_count",
    "IFEM.Immersed.C80_hole",
    "IFEM.Immersed.C80_holes",
    "IFEM.Immersed.C80_function",
    "IFEM.Immersed.C80_aligned",
    "IFEM.Immersed.C80_hole_missed",
    "IFEM.Immersed.C80_elements",
    "IFEM.Immersed.C80_status",
    "IFEM.Immersed.C80_last_only",
    "IFEM.Immersed.C80_span",
    "IFEM.Immersed.C80_fixed",
    "IFEM.Immersed.C80_intersected",
    "IFEM.Immersed.C80_interfaces",
    "IFEM.Immersed.C80_interface_outside",
    "IFEM.Immersed.C80_west_missed",
    "IFEM.Immersed.C80_cut_missed",
    "IFEM.Immersed.C80_case_sqrt",
    "IFEM.Immersed.C80_case_rule",
    "IFEM.Immersed.C80_case_element",
    "IFEM.Immersed.C80_turned",
    "IFEM.Immersed.C80_interface_case"
   ],
   "note": "Exact field arithmetic; the square root and hypot are parameters. Exceptions by example (F148-F153)."
  },
  {
   "property": "C81",
   "status": "proved",
   "theorems": [
    "IFEM.Dirichlet.C81_lift_exists",
    "IFEM.Dirichlet.C81_homog_exists",
    "IFEM.Dirichlet.C81_unique",
    "IFEM.Dirichlet.C81_increment",
    "IFEM.Dirichlet.C81_homogeneous",
    "IFEM.Dirichlet.C81_attained",
    "IFEM.Dirichlet.C81_values",
    "IFEM.Dirichlet.C81_only_constants",
    "IFEM.Dirichlet.C81_refused",
    "IFEM.Dirichlet.C81_prescribed",
    "IFEM.Dirichlet.C81_driver",
    "IFEM.Dirichlet.C81_back_to_zero",
    "IFEM.Dirichlet.C81_constant_and_masters",
    "IFEM.Props.C81_inconsistent"
   ],
   "note": "Exact field arithmetic; the functions are parameters. Models whose chain pointers are set (GoodModel of C51). The condition under which the new solution obeys the constraints is exact; where it fails is shown by example (F12)."
  },
  {
   "property": "C82",
   "status": "proved",
   "theorems": [
    "IFEM.Props.C82_recover_one",
    "IFEM.Props.C82_split",
    "IFEM.Props.C82_condensation",
    "IFEM.Props.C82_equivalence",
    "IFEM.Props.C82_refused",
    "IFEM.Props.C82_last_internal",
    "IFEM.Props.C82_last_internal_recovery",
    "IFEM.Props.C82_springs",
    "IFEM.Props.C82_springs_last",
    "IFEM.Props.C82_not_nodal",
    "IFEM.Props.C82_quarter_turn",
    "IFEM.Props.C82_transform_matrix",
    "IFEM.Props.C82_transform_vector",
    "IFEM.Props.C82_rotation",
    "IFEM.Props.C82_transform_refused",
    "IFEM.Props.C82_patch_transform",
    "IFEM.Props.C82_recover_global"
   ],
   "note": "Exact field arithmetic; the solver of the internal equations is a parameter assumed to solve; the recovery file is the matrix it contains. If the last equation is internal the code leaves an array: proved as C82_last_internal (F154). Transformation proved for vectors and matrices whose size is a multiple of the nodal one; otherwise the array is left (F155, by example)."
  },
  {
   "property": "C83",
   "status": "proved",
   "theorems": [
    "IFEM.Cheby.C83_polynomials",
    "IFEM.Cheby.C83_cosine",
    "IFEM.Cheby.C83_negative",
    "IFEM.Cheby.C83_first_derivatives",
    "IFEM.Cheby.C83_second_derivative",
    "IFEM.Cheby.C83_value",
    "IFEM.Cheby.C83_no_file",
    "IFEM.Cheby.C83_derivative",
    "IFEM.Cheby.C83_mixed",
    "IFEM.Cheby.C83_second",
    "IFEM.Cheby.C83_second_exact",
    "IFEM.Cheby.C83_read_wf",
    "IFEM.Cheby.C83_vector",
    "IFEM.Cheby.C83_vector_ncmp",
    "IFEM.Cheby.C83_single_input_gradient",
    "IFEM.Cheby.C83_tensor",
    "IFEM.Cheby.C83_interpolate",
    "IFEM.Cheby.C83_reproduces",
    "IFEM.Cheby.C83_cardinal",
    "IFEM.Cheby.C83_matrix"
   ],
   "note": "Exact field arithmetic; the stream is a list of numbers. Directions with more than one polynomial need a domain of non-zero length. The second derivative within 1e-6 of an end is that of the end (F156); exceptions of the vector function by theorem and example (F158, F159)."
  },
  {
   "property": "C84",
   "status": "proved",
   "theorems": [
    "IFEM.Modal.C84_dynamics",
    "IFEM.Modal.C84_dynamics_complete",
    "IFEM.Modal.C84_unique",
    "IFEM.Modal.C84_rayleigh",
    "IFEM.Modal.C84_individual_damping_ignored",
    "IFEM.Modal.C84_quasi_static",
    "IFEM.Modal.C84_subset_refused",
    "IFEM.Modal.C84_expand",
    "IFEM.Modal.C84_expand_refused",
    "IFEM.Modal.C84_expanded_index",
    "IFEM.Modal.C84_orthonormalize",
    "IFEM.Modal.C84_compute_damping",
    "IFEM.Modal.C84_restart",
    "IFEM.Modal.C84_restart_damping_lost",
    "IFEM.Modal.C84_frequency",
    "IFEM.Modal.C84_no_modes",
    "IFEM.Modal.C84_too_few",
    "IFEM.Modal.C84_no_modes_access"
   ],
   "note": "Exact field arithmetic; the eigenvalue solver is not modelled: modes enter through the hypotheses of the specification (orthonormal, numbered in order). Normalization is proved to be wrong (C84_orthonormalize, F160); individual damping without Rayleigh damping, subsets of modes, more than three solution vectors and negative eigenvalues are characterised by theorems or examples (F161-F165)."
  },
  {
   "property": "C85",
   "status": "proved",
   "theorems": [
    "IFEM.FieldFile.C85_one_query",
    "IFEM.FieldFile.C85_any_order",
    "IFEM.FieldFile.C85_forward",
    "IFEM.FieldFile.C85_fixed",
    "IFEM.FieldFile.C85_last_level",
    "IFEM.FieldFile.C85_not_loaded"
   ],
   "note": "Exact arithmetic; the file is the list of its times; loading of a level is a parameter assumed to succeed. The condition for success is exact; where it fails is proved too (F166-F169)."
  },
  {
   "property": "C86",
   "status": "proved",
   "theorems": [
    "IFEM.ClosePatch.C86_close_3D",
    "IFEM.ClosePatch.C86_close_3D_iff",
    "IFEM.ClosePatch.C86_close_2D",
    "IFEM.ClosePatch.C86_collapse_face",
    "IFEM.ClosePatch.C86_collapse_face_located",
    "IFEM.ClosePatch.C86_collapse_face_iff",
    "IFEM.ClosePatch.C86_collapse_swapped",
    "IFEM.ClosePatch.C86_collapse_edge",
    "IFEM.ClosePatch.C86_collapse_edge_one",
    "IFEM.ClosePatch.C86_close_mixed",
    "IFEM.ClosePatch.C86_close_1D"
   ],
   "note": "Comparison of coordinates is a parameter. The claims about common numbers are for patches with one basis (in mixed patches constraints are added instead, F172). Face collapse is proved for ascending numbering, edge collapse for any numbering with the exact condition (F170); the swapped third direction is excluded for edges of faces 5 and 6 and its refusal proved (F171)."
  },
  {
   "property": "C87",
   "status": "proved",
   "theorems": [
    "IFEM.Xml.C87_include",
    "IFEM.Xml.C87_include_iff",
    "IFEM.Xml.C87_refused",
    "IFEM.Xml.C87_order",
    "IFEM.Xml.C87_readXML",
    "IFEM.Xml.C87_missing"
   ],
   "note": "Documents are trees of elements with a leading text; files are a function from names to root elements; parse is a parameter. The prioritised tags are assumed distinct. Missing files: F173, F174."
  },
  {
   "property": "C88",
   "status": "proved",
   "theorems": [
    "IFEM.Dep.C88_field",
    "IFEM.Dep.C88_dependencies",
    "IFEM.Dep.C88_values",
    "IFEM.Dep.C88_dependent_field",
    "IFEM.Dep.C88_dependent_patch",
    "IFEM.Dep.C88_fill",
    "IFEM.Dep.C88_extract_values",
    "IFEM.Dep.C88_extract",
    "IFEM.Dep.C88_extract_stops",
    "IFEM.Dep.C88_field_object",
    "IFEM.Dep.C88_stale_object",
    "IFEM.Dep.C88_example_lookup",
    "IFEM.Dep.C88_example_extract",
    "IFEM.Dep.C88_example_ready",
    "IFEM.Dep.C88_duplicate_name"
   ],
   "note": "Vectors are identified by numbers (pointers); simulators start without fields. Patches have one basis. The number of components is less than 256 in absolute value. The status of extractNodalVec is not used by the code. F176, F177 are proved as theorems."
  },
  {
   "property": "C89",
   "status": "proved",
   "theorems": [
    "IFEM.AlgSys.C89_element",
    "IFEM.AlgSys.C89_round",
    "IFEM.AlgSys.C89_any_schedule",
    "IFEM.AlgSys.C89_rhs_only",
    "IFEM.AlgSys.C89_init",
    "IFEM.AlgSys.C89_associate",
    "IFEM.AlgSys.C89_add",
    "IFEM.AlgSys.C89_add_refused",
    "IFEM.AlgSys.C89_scalars_lost",
    "IFEM.AlgSys.C89_single_link",
    "IFEM.AlgSys.C89_reactions",
    "IFEM.AlgSys.C89_round_reactions"
   ],
   "note": "Dense storage; the theorems about a round are for systems without reaction forces; C89_reactions gives these for one matrix and elements with at most one prescribed DOF (otherwise the code is wrong, see C39). Element matrices and vectors fit the element. Scalars of elements without matrices and vectors are not added (F178, in sclPart), a single matrix is always linked with the first vector (F179), add is bounded by the number of matrices (F30): these are stated in the theorems."
  },
  {
   "property": "C90",
   "status": "proved",
   "theorems": [
    "IFEM.VBlk.C90_elements",
    "IFEM.VBlk.C90_center",
    "IFEM.VBlk.C90_fill",
    "IFEM.VBlk.C90_index",
    "IFEM.VBlk.C90_merge",
    "IFEM.VBlk.C90_merge_numbers",
    "IFEM.VBlk.C90_merge_parameters",
    "IFEM.VBlk.C90_remove",
    "IFEM.VBlk.C90_remove_mixed",
    "IFEM.VBlk.C90_remove_first",
    "IFEM.VBlk.C90_sphere",
    "IFEM.VBlk.C90_cylinder"
   ],
   "note": "The comparison of points is a parameter. Filling is proved for mixed types whose number of entries is not a multiple of the number of elements (otherwise F182). Removal is proved for blocks of one type and for the first element of a mixed block; the effect on other elements of a mixed block is F181, proved as a theorem. Parameters of the second block are lost in merging (F180). Coordinates of spheres and cylinders are not modelled."
  },
  {
   "property": "C91",
   "status": "proved",
   "theorems": [
    "IFEM.Tens4.C91_places",
    "IFEM.Tens4.C91_create",
    "IFEM.Tens4.C91_contract",
    "IFEM.Tens4.C91_put",
    "IFEM.Tens4.C91_vector",
    "IFEM.Tens4.C91_assign",
    "IFEM.Tens4.C91_number",
    "IFEM.Tens4.C91_symm",
    "IFEM.Tens4.C91_symm_create",
    "IFEM.Tens4.C91_symm_put",
    "IFEM.Tens4.C91_symm_vector",
    "IFEM.Tens4.C91_symm_assign",
    "IFEM.Tens4.C91_symm_number"
   ],
   "note": "Symmetric tensors in one to three dimensions (the others are refused by redim). Components are elements of any ring-like type. The defects of SymmTensor4 (F183-F185) are proved as theorems: construction from the 6x6 representation, assignment between tensors, assignment of a number. The tensor called identity in the code maps a second-order tensor to its diagonal only."
  },
  {
   "property": "C92",
   "status": "proved",
   "theorems": [
    "IFEM.EigMode.C92_amplitudes",
    "IFEM.EigMode.C92_frequencies",
    "IFEM.EigMode.C92_list_frequency",
    "IFEM.EigMode.C92_count",
    "IFEM.EigMode.C92_modes",
    "IFEM.EigMode.C92_entries",
    "IFEM.EigMode.C92_combination",
    "IFEM.EigMode.C92_negative",
    "IFEM.EigMode.C92_steps",
    "IFEM.EigMode.C92_negative_start"
   ],
   "note": "Numbers are elements of an ordered field; the sine function, 2\u03c0 and the tolerance are parameters. Frequencies are proved for inputs where a list with a frequency has one mode only (otherwise F186); amplitudes are zero or above the tolerance (negative ones are left out, F187); the first step starts at a non-negative time (otherwise F188). These defects are proved as theorems. Lists of modes are not empty and positive (exact condition proved)."
  },
  {
   "property": "C93",
   "status": "proved",
   "theorems": [
    "IFEM.GForce.C93_zero",
    "IFEM.GForce.C93_init",
    "IFEM.GForce.C93_element",
    "IFEM.GForce.C93_forces",
    "IFEM.GForce.C93_any_order",
    "IFEM.GForce.C93_refused",
    "IFEM.GForce.C93_skipped"
   ],
   "note": "Element nodes and numbers of DOFs per node are parameters. The nodes of the boundary are different and exist (otherwise F108, proved as C93_skipped). Element vectors have the force components of the boundary nodes; shorter ones are read beyond their end in the code. An existing element without nodes on the boundary leaves the forces as they are, by C93_element."
  },
  {
   "property": "C94",
   "status": "proved",
   "theorems": [
    "IFEM.FuncSum.C94_add",
    "IFEM.FuncSum.C94_history",
    "IFEM.FuncSum.C94_type",
    "IFEM.FuncSum.C94_domain",
    "IFEM.FuncSum.C94_initPatch",
    "IFEM.FuncSum.C94_length",
    "IFEM.FuncSum.C94_one_more",
    "IFEM.FuncSum.C94_sum",
    "IFEM.FuncSum.C94_max",
    "IFEM.FuncSum.C94_scalar",
    "IFEM.FuncSum.C94_scalar_value",
    "IFEM.FuncSum.C94_order",
    "IFEM.FuncSum.C94_order_matters"
   ],
   "note": "Exact numbers. The functions are given by their virtual methods; their values have the announced dimension. For weights of both kinds the value is given by C94_one_more, and depends on the order (C94_order_matters)."
  },
  {
   "property": "C95",
   "status": "proved",
   "theorems": [
    "IFEM.NVFun.C95_key",
    "IFEM.NVFun.C95_found",
    "IFEM.NVFun.C95_node",
    "IFEM.NVFun.C95_first",
    "IFEM.NVFun.C95_index",
    "IFEM.NVFun.C95_value",
    "IFEM.NVFun.C95_zero",
    "IFEM.NVFun.C95_mixed_up",
    "IFEM.NVFun.C95_not_mapped"
   ],
   "note": "Exact coordinates. The tree search of the map is any search whose results are entries equivalent to the point. The separation of the nodes is necessary (F189, proved as C95_mixed_up); C95_found holds without it. Indices found by coordinates are not mapped (F190, C95_not_mapped)."
  },
  {
   "property": "C96",
   "status": "proved",
   "theorems": [
    "IFEM.LogFifo.C96_write",
    "IFEM.LogFifo.C96_connections",
    "IFEM.LogFifo.C96_history",
    "IFEM.LogFifo.C96_silent",
    "IFEM.LogFifo.C96_format",
    "IFEM.LogFifo.C96_precision"
   ],
   "note": "Streams never fail. The same stream may be connected more than once."
  },
  {
   "property": "C97",
   "status": "proved",
   "theorems": [
    "IFEM.LogFifo.C97_register",
    "IFEM.LogFifo.C97_poll",
    "IFEM.LogFifo.C97_overflow",
    "IFEM.LogFifo.C97_closed",
    "IFEM.LogFifo.C97_callbacks",
    "IFEM.LogFifo.C97_message",
    "IFEM.LogFifo.C97_two_messages"
   ],
   "note": "The XML parser is a parameter; a read error has the effect of an empty pipe. The bound of 2048 bytes and polling between messages are necessary (F191, F192, proved as theorems)."
  },
  {
   "property": "C98",
   "status": "proved",
   "theorems": [
    "IFEM.LagNodes.C98_accepted",
    "IFEM.LagNodes.C98_step",
    "IFEM.LagNodes.C98_history",
    "IFEM.LagNodes.C98_order",
    "IFEM.LagNodes.C98_center",
    "IFEM.LagNodes.C98_center_shift",
    "IFEM.LagNodes.C98_field",
    "IFEM.LagNodes.C98_field_zero"
   ],
   "note": "Exact coordinates. Elements without nodes and vectors for zero nodes give a division by zero in the code, modelled as failure. The center is shifted in characteristic zero."
  }
 ]
}