{
 "claims": [
  {
   "property": "C01",
   "status": "partial",
   "theorems": [
    "DNDSR.Arr.array_refines_rows",
    "DNDSR.Arr.array_never_ub",
    "DNDSR.Arr.array_accepts_iff",
    "DNDSR.Arr.array_value_unique",
    "DNDSR.Arr.swapData_fixed",
    "DNDSR.Arr.empty_compressed_csr_cannot_grow",
    "DNDSR.Arr.max_shrink_aliases_rows",
    "DNDSR.Arr.swapData_max_not_swap"
   ],
   "note": "proved for every program whose calls are Usable; the two unusable calls (growing a CSR array compressed while empty, shrinking a max table below a surviving row) and SwapData on max tables violate the property, counterexamples proved"
  },
  {
   "property": "C02",
   "status": "proved",
   "theorems": [
    "DNDSR.Arr.compress_spec",
    "DNDSR.Arr.decompress_spec"
   ],
   "note": ""
  },
  {
   "property": "C03",
   "status": "proved",
   "theorems": [
    "DNDSR.Arr.access_checked",
    "DNDSR.Arr.access_injective",
    "DNDSR.Arr.row_pointer_spec",
    "DNDSR.Arr.row_access_checked"
   ],
   "note": "for every reachable array state"
  },
  {
   "property": "C04",
   "status": "proved",
   "theorems": [
    "DNDSR.IMap.offsets_built",
    "DNDSR.IMap.offsets_apply",
    "DNDSR.IMap.offsets_search",
    "DNDSR.IMap.offsets_bijective",
    "DNDSR.IMap.offsets_apply_accepts_end",
    "DNDSR.IMap.offsets_apply_rank_end"
   ],
   "note": "the bijection and the search are proved for every vector of lengths; operator()'s own range check is one too wide (counterexamples proved for every table); invalid local indices are outside the property"
  },
  {
   "property": "C05",
   "status": "proved",
   "theorems": [
    "DNDSR.IMap.ghost_map_exists",
    "DNDSR.IMap.ghost_list_spec",
    "DNDSR.IMap.ghost_searchAppend_spec",
    "DNDSR.IMap.ghost_append_roundtrip",
    "DNDSR.IMap.ghost_searchRank_spec"
   ],
   "note": "the construction's success conditions are a separate theorem; push-constructed mappings do not have the property (push_constructed_lookup_misses)"
  },
  {
   "property": "C06",
   "status": "proved",
   "theorems": [
    "DNDSR.IMap.push_pull_agree",
    "DNDSR.IMap.push_constructed_agree",
    "DNDSR.IMap.push_constructed_lookup_misses"
   ],
   "note": ""
  },
  {
   "property": "C07",
   "status": "proved",
   "theorems": [
    "DNDSR.Tran.createTypes_total",
    "DNDSR.Tran.createTypes_father",
    "DNDSR.Tran.pull_delivers"
   ],
   "note": "derived-datatype strategy (the default), every layout, any delivery order, after any program of writes, pulls and pushes"
  },
  {
   "property": "C08",
   "status": "proved",
   "theorems": [
    "DNDSR.Tran.push_writes_back"
   ],
   "note": "derived-datatype strategy, every layout, any delivery order"
  },
  {
   "property": "C09",
   "status": "partial",
   "theorems": [
    "DNDSR.Tran.inSitu_pull_partial",
    "DNDSR.Tran.inSitu_empty_rows_hang",
    "DNDSR.Tran.inSitu_max_misplaced",
    "DNDSR.Tran.inSitu_pushOnce_aborts"
   ],
   "note": "pull in the layouts without padding when no pair exchanges only empty rows; the other cases violate the property, counterexamples proved"
  },
  {
   "property": "C10",
   "status": "proved",
   "theorems": [
    "DNDSR.Defines.safeAdd_exact",
    "DNDSR.Defines.size_t_to_signed_exact",
    "DNDSR.Defines.checkedIndexTo32_exact"
   ],
   "note": "generic in the integer width"
  },
  {
   "property": "C100",
   "status": "proved",
   "theorems": [
    "DNDSR.CharVar.frame_orthonormal",
    "DNDSR.CharVar.char_inverse",
    "DNDSR.CharVar.char_extra",
    "DNDSR.CharVar.char_waves",
    "DNDSR.CharVar.char_refused",
    "DNDSR.CharVar.euler_limiter_keeps"
   ],
   "note": "reals; where the mean density is not positive the program stops (char_refused)"
  },
  {
   "property": "C101",
   "status": "proved",
   "theorems": [
    "DNDSR.SmoothInd.indicator_value",
    "DNDSR.SmoothInd.indicator1_value",
    "DNDSR.SmoothInd.indicator_sees",
    "DNDSR.SmoothInd.pressurePost_total",
    "DNDSR.SmoothInd.indicator1_pressure",
    "DNDSR.SmoothInd.smooth_kept"
   ],
   "note": "reals; the build without OpenMP; maxNDOF base functions in all cells"
  },
  {
   "property": "C102",
   "status": "proved",
   "theorems": [
    "DNDSR.VtkOut.file_shows_mesh",
    "DNDSR.VtkOut.shown_places",
    "DNDSR.VtkOut.onmesh_exists",
    "DNDSR.VtkOut.ring_points",
    "DNDSR.VtkOut.rebuild_duplicates"
   ],
   "note": "reals; HDF5 as arrays of slabs; one preparation before the first file, as the solver does it: a second one duplicates the connectivity (rebuild_duplicates)"
  },
  {
   "property": "C103",
   "status": "proved",
   "theorems": [
    "DNDSR.Bisect.cut_rank",
    "DNDSR.Bisect.cut_diagonal",
    "DNDSR.Bisect.cut_seen",
    "DNDSR.Bisect.cut_closed",
    "DNDSR.Bisect.elevated_closed"
   ],
   "note": "reals; the ranks know the nodes of their cells and the first cell of a boundary element is on its rank, as BuildGhostPrimary and the reader leave them"
  },
  {
   "property": "C104",
   "status": "partial",
   "theorems": [
    "DNDSR.Lift.moves_iff",
    "DNDSR.Lift.angle_spec",
    "DNDSR.Lift.move_spec",
    "DNDSR.Lift.slope_spec",
    "DNDSR.Lift.converged_iff",
    "DNDSR.Lift.linear_converges_partial",
    "DNDSR.Lift.coefficients_spec",
    "DNDSR.Lift.never_stops",
    "DNDSR.Lift.at_target_nan",
    "DNDSR.Lift.axes_accepted"
   ],
   "note": "reals, NaN as a separate value; convergence needs that no angle hits the target exactly, else the angle becomes NaN (at_target_nan); thresholds below one are read as zero, so that convergence is not reported (never_stops); the constructor accepts axes that do not work (axes_accepted)"
  },
  {
   "property": "C105",
   "status": "partial",
   "theorems": [
    "DNDSR.Rot.rot_axes",
    "DNDSR.Rot.cross_spec",
    "DNDSR.Rot.rotateAxis_spec",
    "DNDSR.Rot.rotateAxis_add",
    "DNDSR.Rot.rotateAxis_axes",
    "DNDSR.Move.configure_proper",
    "DNDSR.Move.prepare_periodic_partial",
    "DNDSR.Move.place_dist",
    "DNDSR.Move.bnd_info_stale",
    "DNDSR.Move.rectify_moves_image"
   ],
   "note": "reals; angles below 1e-10 are no rotation; the boundary mesh keeps the transformations of the mesh as read (bnd_info_stale), and rectification moves a node but not its image (rectify_moves_image); symmetry planes are not modelled"
  },
  {
   "property": "C106",
   "status": "partial",
   "theorems": [
    "DNDSR.Frame.far_field_source",
    "DNDSR.Frame.source_work",
    "DNDSR.Frame.source_diff",
    "DNDSR.Frame.jacobian_spec_partial",
    "DNDSR.Frame.weight_not_in_jacobian",
    "DNDSR.Frame.rtz_spec_partial",
    "DNDSR.Frame.radius_ignores_center",
    "DNDSR.Frame.tilted_axis_plane"
   ],
   "note": "reals; the branch USE_ABS_VELO_IN_ROTATION, without turbulence; angles below 1e-10 are no rotation; the Jacobian leaves out the weight (weight_not_in_jacobian), the radius ignores the center of rotation (radius_ignores_center), and axes in the plane of a two dimensional flow are accepted (tilted_axis_plane)"
  },
  {
   "property": "C107",
   "status": "partial",
   "theorems": [
    "DNDSR.Rbf.compact_iff",
    "DNDSR.Rbf.phi_decreasing",
    "DNDSR.Rbf.solvable_iff",
    "DNDSR.Rbf.interpolation_unique",
    "DNDSR.Rbf.smoothDisp_spec",
    "DNDSR.Rbf.far_node_stays",
    "DNDSR.Rbf.compact_exact_partial",
    "DNDSR.Rbf.smoothDisp_translate",
    "DNDSR.Rbf.poly_reproduces",
    "DNDSR.Rbf.separated_solvable",
    "DNDSR.Rbf.samples_spec",
    "DNDSR.Rbf.smooth_spec",
    "DNDSR.Rbf.smooth_none",
    "DNDSR.Rbf.small_radius_cut",
    "DNDSR.Rbf.constant_not_kept",
    "DNDSR.Rbf.distance_single",
    "DNDSR.Rbf.coincident_unsolvable",
    "DNDSR.Rbf.other_boundary_moves"
   ],
   "note": "reals; the search for the nearest points and the linear solver are parameters with a specification, for regular systems; the distance is compared with the square of the radius (small_radius_cut), a boundary that moves as a whole does not take the mesh along (constant_not_kept), and nodes marked as lying on other boundaries are moved (other_boundary_moves)"
  },
  {
   "property": "C108",
   "status": "proved",
   "theorems": [
    "DNDSR.Mid.tangent_spec",
    "DNDSR.Mid.midLine_cubic",
    "DNDSR.Mid.midLine_quadratic",
    "DNDSR.Mid.midLine_none",
    "DNDSR.Mid.midLine_swap",
    "DNDSR.Mid.midLine_scale",
    "DNDSR.Mid.midLine_flat",
    "DNDSR.Mid.midLine_move",
    "DNDSR.Mid.midQuad_turn",
    "DNDSR.Mid.midQuad_flat"
   ],
   "note": "reals; the choice of the normals at the nodes is not modelled; where a normal is along the chord its tangent is zero"
  },
  {
   "property": "C109",
   "status": "proved",
   "theorems": [
    "DNDSR.Vortex.vortex10_solves",
    "DNDSR.Vortex.vortex30_solves",
    "DNDSR.Vortex.vortexCent_solves",
    "DNDSR.Vortex.isentropic",
    "DNDSR.Vortex.vortex10_periodic",
    "DNDSR.Vortex.vortex30_periodic",
    "DNDSR.Vortex.floatMod_spec",
    "DNDSR.Vortex.weak_air",
    "DNDSR.Vortex.vortex10_jump"
   ],
   "note": "reals, two dimensions; the vortex must be weak enough for a positive temperature, which both strengths of the program are for air (weak_air); at the ends of the period the field jumps (vortex10_jump), which the property leaves out"
  },
  {
   "property": "C11",
   "status": "proved",
   "theorems": [
    "DNDSR.Defines.accumulateRowSize_spec",
    "DNDSR.Defines.checkUniformVector_spec"
   ],
   "note": ""
  },
  {
   "property": "C110",
   "status": "partial",
   "theorems": [
    "DNDSR.LiftF.flux_total",
    "DNDSR.LiftF.named_force_partial",
    "DNDSR.LiftF.wall_force_partial",
    "DNDSR.LiftF.flux_partition",
    "DNDSR.LiftF.evaluate_ok",
    "DNDSR.LiftF.kept",
    "DNDSR.LiftF.both_walls_twice",
    "DNDSR.LiftF.own_wall_twice",
    "DNDSR.LiftF.other_wall_counted",
    "DNDSR.LiftF.slip_wall_left_out"
   ],
   "note": "reals; the code does not have the property when a standard wall zone is named: walls are counted once per named standard zone whatever their own zone, and slip walls are left out in a viscous fluid (four counterexamples); proved for zones of the user, and for one standard wall zone that holds all walls"
  },
  {
   "property": "C111",
   "status": "partial",
   "theorems": [
    "DNDSR.SymP.rectify_spec",
    "DNDSR.SymP.rectified_partial",
    "DNDSR.SymP.rectify_serial",
    "DNDSR.SymP.rectify_ok",
    "DNDSR.SymP.rectify_lost"
   ],
   "note": "reals; proved on one rank and whenever the owner of a node has an element of the plane with the node; otherwise the exchange brings the old coordinate back (rectify_lost), which the partition of the code allows"
  },
  {
   "property": "C112",
   "status": "partial",
   "theorems": [
    "DNDSR.Turb.muEff_sutherland",
    "DNDSR.Turb.muEff_pos",
    "DNDSR.Turb.muEff_ref",
    "DNDSR.Turb.muEff_mono",
    "DNDSR.Turb.muEff_unknown",
    "DNDSR.Turb.saMut_bounds",
    "DNDSR.Turb.keMut_bounds",
    "DNDSR.Turb.ke_boost",
    "DNDSR.Turb.keFlux_down",
    "DNDSR.Turb.decay_partial",
    "DNDSR.Turb.production",
    "DNDSR.Turb.timescale_blind",
    "DNDSR.Turb.sstMut_bounds",
    "DNDSR.Turb.sst_blend",
    "DNDSR.Turb.sstFlux_down",
    "DNDSR.Turb.wilcoxMut_bounds",
    "DNDSR.Turb.komega_boost",
    "DNDSR.Turb.komega_plain",
    "DNDSR.Turb.vorticity_eq_zero"
   ],
   "note": "reals; the laws of the gas, the Spalart-Allmaras viscosity and the realizable k-epsilon model; the last part fails: the sources of k-epsilon take the turbulent energy for dissipation, so that the time scale does not depend on dissipation (timescale_blind); the sources of the k-omega models and of Spalart-Allmaras are in C113 and C114"
  },
  {
   "property": "C113",
   "status": "partial",
   "theorems": [
    "DNDSR.Turb.wilcox_energy",
    "DNDSR.Turb.wilcox_decay",
    "DNDSR.Turb.wilcox_solenoidal",
    "DNDSR.Turb.fBeta_bounds",
    "DNDSR.Turb.komega_rates",
    "DNDSR.Turb.komega_rate_values",
    "DNDSR.Turb.komega_source_boost",
    "DNDSR.Turb.crossDiff_spec",
    "DNDSR.Turb.sst_energy_partial",
    "DNDSR.Turb.sst_solenoidal",
    "DNDSR.Turb.sst_lower_lost",
    "DNDSR.Turb.sst_gamma_blind"
   ],
   "note": "reals; the compiled variants of both models; proved for Wilcox's model; for shear stress transport two parts fail: the lower limit of production is lost, so that it can be negative (sst_lower_lost), and the factor of the production of specific dissipation is not blended (sst_gamma_blind)"
  },
  {
   "property": "C114",
   "status": "partial",
   "theorems": [
    "DNDSR.Turb.negative_recovers",
    "DNDSR.Turb.negative_recovers_uniform",
    "DNDSR.Turb.sa_diffusion",
    "DNDSR.Turb.laminar_stays",
    "DNDSR.Turb.saSh_ge",
    "DNDSR.Turb.saSh_lt",
    "DNDSR.Turb.saSh_meet",
    "DNDSR.Turb.production_nonneg",
    "DNDSR.Turb.saFw_bounds",
    "DNDSR.Turb.sa_rate",
    "DNDSR.Turb.sa_boost",
    "DNDSR.Turb.rotation_negative"
   ],
   "note": "reals; the compiled variant of the model; negative values are treated where density or the variable per mass is uniform, elsewhere the term with both gradients has either sign; one part fails: with the correction for rotation production is negative in a flow that rotates without strain (rotation_negative)"
  },
  {
   "property": "C12",
   "status": "partial",
   "theorems": [
    "DNDSR.Defines.cmod_spec",
    "DNDSR.Defines.divide_ceil_spec",
    "DNDSR.Defines.divide_ceil_negative_wrong",
    "DNDSR.Defines.divCeil_wrong",
    "DNDSR.Defines.divCeil_partial"
   ],
   "note": "mod and divide_ceil proved; divCeil violates the property (operator precedence), negation proved"
  },
  {
   "property": "C13",
   "status": "proved",
   "theorems": [
    "DNDSR.Defines.iterateIdentical_visits",
    "DNDSR.Defines.commonVisits_spec"
   ],
   "note": ""
  },
  {
   "property": "C14",
   "status": "proved",
   "theorems": [
    "DNDSR.Pool.pool_exclusive",
    "DNDSR.Pool.pool_conserved",
    "DNDSR.Pool.pool_last_dropped_first_got",
    "DNDSR.Pool.pool_getAlloc_holds",
    "DNDSR.Pool.pool_moveAssign_loses"
   ],
   "note": "the excluded move assignment loses an object (pool_moveAssign_loses)"
  },
  {
   "property": "C15",
   "status": "proved",
   "theorems": [
    "DNDSR.Ser.path_meaning",
    "DNDSR.Ser.path_history",
    "DNDSR.Ser.path_go",
    "DNDSR.Ser.path_create",
    "DNDSR.Ser.path_return",
    "DNDSR.Ser.path_nested_writes"
   ],
   "note": "JSON serializer; names that JSON pointers treat specially (containing ~, or all digits) are not distinguished in the model"
  },
  {
   "property": "C16",
   "status": "partial",
   "theorems": [
    "DNDSR.SerArr.signature_roundtrip",
    "DNDSR.SerArr.array_roundtrip_partial",
    "DNDSR.SerArr.array_incompatible_aborts_partial",
    "DNDSR.SerArr.zero_width_read_ub",
    "DNDSR.SerArr.never_resized_write_ub",
    "DNDSR.SerArr.static_max_reads_wrong_rows",
    "DNDSR.SerArr.ignored_max_reads_wrong_width"
   ],
   "note": "proved except for zero-width fixed arrays, max arrays never resized, types whose ignored row maximum is not the default, and static-maximum readers of dynamic-maximum files; in those the property fails, counterexamples proved"
  },
  {
   "property": "C17",
   "status": "proved",
   "theorems": [
    "DNDSR.Ser.base64_roundtrip",
    "DNDSR.Ser.zlib_buffer_suffices",
    "DNDSR.Ser.zlib_buffer_empty",
    "DNDSR.Ser.bytes_roundtrip"
   ],
   "note": "zlib is an external library and enters as an assumed inverse pair; base64 is modelled after RFC 4648; the empty array with the codec on needs compression into 12 bytes to succeed"
  },
  {
   "property": "C18",
   "status": "partial",
   "theorems": [
    "DNDSR.Ser.shared_roundtrip_partial",
    "DNDSR.Ser.shared_address_reuse",
    "DNDSR.Ser.shared_variable_reassigned",
    "DNDSR.Ser.h5_shared_single",
    "DNDSR.Ser.h5_shared_decision",
    "DNDSR.Ser.h5_shared_ranks_disagree"
   ],
   "note": "proved when addresses identify unchanged vectors and reader variables are not reassigned; otherwise the property fails, counterexamples proved"
  },
  {
   "property": "C19",
   "status": "proved",
   "theorems": [
    "DNDSR.Ser.offsets_tile",
    "DNDSR.Ser.parts_roundtrip",
    "DNDSR.Ser.dist_roundtrip",
    "DNDSR.Ser.parts_wrong_nproc",
    "DNDSR.Ser.collective_read_skipped"
   ],
   "note": "independent data transfers (the default); with collective transfers an empty rank does not join the read (collective_read_skipped)"
  },
  {
   "property": "C20",
   "status": "proved",
   "theorems": [
    "DNDSR.Per.slot_spec",
    "DNDSR.Per.transCoord_total",
    "DNDSR.Per.transCoord_motion",
    "DNDSR.Per.transCoord_back",
    "DNDSR.Per.transCoord_dist",
    "DNDSR.Per.transVector3_back",
    "DNDSR.Per.transVector2_back",
    "DNDSR.Per.transVector_of_coord",
    "DNDSR.Per.transMat3_back",
    "DNDSR.Per.transMat2_back",
    "DNDSR.Per.coordByBits_back",
    "DNDSR.Per.vectorByBits3_back",
    "DNDSR.Per.vectorByBits2_back",
    "DNDSR.Per.coordByBits_default"
   ],
   "note": "real numbers; two dimensional vectors need a rotation that keeps the plane, since the code then uses the 2x2 block"
  },
  {
   "property": "C21",
   "status": "proved",
   "theorems": [
    "DNDSR.Bits.marks_xor_group",
    "DNDSR.Bits.marks_set_get",
    "DNDSR.Bits.marks_flags",
    "DNDSR.Bits.collaborative_iff",
    "DNDSR.Bits.bitandReduce_spec"
   ],
   "note": ""
  },
  {
   "property": "C22",
   "status": "proved",
   "theorems": [
    "DNDSR.RCM.reorder_permutation",
    "DNDSR.RCM.reorder_rejects",
    "DNDSR.RCM.bfs_visits",
    "DNDSR.RCM.checkAdj_ok"
   ],
   "note": "up to 2^31 vertices: the root passes through an int; everything that is not a symmetric graph is refused"
  },
  {
   "property": "C23",
   "status": "proved",
   "theorems": [
    "DNDSR.Part.renumbering",
    "DNDSR.Part.grouping",
    "DNDSR.Part.transfer_delivers",
    "DNDSR.Part.convert_adjacency",
    "DNDSR.Part.converted_reference",
    "DNDSR.Part.node_partition_least",
    "DNDSR.Part.grouping_aborts_out_of_range",
    "DNDSR.Part.unreferenced_node_aborts"
   ],
   "note": "the partitioner itself (Metis) is external: any assignment of targets is covered"
  },
  {
   "property": "C24",
   "status": "proved",
   "theorems": [
    "DNDSR.MeshAdj.entry_restored",
    "DNDSR.MeshAdj.name_restored",
    "DNDSR.MeshAdj.primary_restored",
    "DNDSR.MeshAdj.primary_to_local",
    "DNDSR.MeshAdj.primary_local_restored",
    "DNDSR.MeshAdj.primary_bnd_restored",
    "DNDSR.MeshAdj.facial_restored",
    "DNDSR.MeshAdj.c2f_restored",
    "DNDSR.MeshAdj.noSon_restored",
    "DNDSR.MeshAdj.n2cb_restored",
    "DNDSR.MeshAdj.history_restores",
    "DNDSR.MeshAdj.minus_one_not_restored"
   ],
   "note": "entries are valid global indices or the mark 'no entry'; the value -1 itself is not restored (minus_one_not_restored)"
  },
  {
   "property": "C25",
   "status": "proved",
   "theorems": [
    "DNDSR.N2C.node2cell_exact",
    "DNDSR.N2C.node2cell_refuses"
   ],
   "note": "any iteration order of the hash containers and any delivery order; fewer than INT_MAX entries in all"
  },
  {
   "property": "C26",
   "status": "proved",
   "theorems": [
    "DNDSR.Faces.faces_match",
    "DNDSR.Faces.same_points",
    "DNDSR.Faces.faces_two_cells",
    "DNDSR.Faces.strip_closes",
    "DNDSR.Faces.thin_periodic_not_shared"
   ],
   "note": "the faces of one rank; in a periodic mesh one cell thick a face lists a node twice, the sort by node alone does not pair up the bits and two cells with the same four points are given two faces (thin_periodic_not_shared)"
  },
  {
   "property": "C27",
   "status": "proved",
   "theorems": [
    "DNDSR.Direct.symbolic_covers",
    "DNDSR.Direct.complete_pattern_least",
    "DNDSR.Direct.symbolic_limit"
   ],
   "note": "fresh object, fill level at most 5 (the code aborts above)"
  },
  {
   "property": "C28",
   "status": "proved",
   "theorems": [
    "DNDSR.Direct.lu_solves",
    "DNDSR.Direct.direct_solve",
    "DNDSR.Direct.decompose_returns",
    "DNDSR.Direct.decompose_defined",
    "DNDSR.Direct.invertDiag_inverts",
    "DNDSR.Direct.invertDiag_accepts",
    "DNDSR.Direct.zero_diagonal_pivot_aborts"
   ],
   "note": "exact arithmetic; the code also refuses invertible pivots with a zero on the diagonal (zero_diagonal_pivot_aborts)"
  },
  {
   "property": "C29",
   "status": "proved",
   "theorems": [
    "DNDSR.Direct.ilu_on_pattern"
   ],
   "note": "exact arithmetic"
  },
  {
   "property": "C30",
   "status": "proved",
   "theorems": [
    "DNDSR.Direct.ldlt_solves",
    "DNDSR.Direct.ldlt_returns",
    "DNDSR.Direct.ldlt_defined",
    "DNDSR.Direct.transpose_isTranspose"
   ],
   "note": "exact arithmetic"
  },
  {
   "property": "C31",
   "status": "proved",
   "theorems": [
    "DNDSR.ODE.bisect_lower",
    "DNDSR.ODE.bisect_aborts",
    "DNDSR.ODE.bisect_early_return"
   ],
   "note": "exact arithmetic"
  },
  {
   "property": "C32",
   "status": "proved",
   "theorems": [
    "DNDSR.Krylov.pcg_reduces",
    "DNDSR.Krylov.pcg_terminates",
    "DNDSR.Krylov.pcg_solves"
   ],
   "note": "exact arithmetic; one scalar component"
  },
  {
   "property": "C33",
   "status": "partial",
   "theorems": [
    "DNDSR.Krylov.gmres_true_partial",
    "DNDSR.Krylov.gmres_minimizes",
    "DNDSR.Krylov.cycles_decrease",
    "DNDSR.Krylov.exists_lsq",
    "DNDSR.Krylov.gmres_breakdown_wrong"
   ],
   "note": "false when the search space breaks down early: the solver then returns true whatever the residual (gmres_breakdown_wrong); otherwise the flag is about the true preconditioned residual, and every cycle minimizes it over the Krylov space"
  },
  {
   "property": "C34",
   "status": "proved",
   "theorems": [
    "DNDSR.ODE.bdf_history",
    "DNDSR.ODE.vbdf_history"
   ],
   "note": "exact arithmetic; any callbacks and any sequence of steps (equal step sizes for the constant step integrator, as it demands)"
  },
  {
   "property": "C35",
   "status": "proved",
   "theorems": [
    "DNDSR.ODE.bdf_formula_exact",
    "DNDSR.ODE.vbdf_formula_exact",
    "DNDSR.ODE.bdf_exact",
    "DNDSR.ODE.vbdf_exact",
    "DNDSR.ODE.euler_step"
   ],
   "note": "exact arithmetic"
  },
  {
   "property": "C36",
   "status": "partial",
   "theorems": [
    "DNDSR.ODE.herm_quadrature",
    "DNDSR.ODE.herm_interpolation",
    "DNDSR.ODE.herm_step",
    "DNDSR.ODE.herm_exact",
    "DNDSR.ODE.herm_first_step_time_mismatch"
   ],
   "note": "coefficients and residuals exact for every stage position; when the variant using the previous state has none, the coefficients belong to position 1/4 but the middle right-hand side is evaluated at alpha (herm_first_step_time_mismatch); the nested solver variant is not modelled"
  },
  {
   "property": "C37",
   "status": "partial",
   "theorems": [
    "DNDSR.ODE.ssprk3_convex_combination",
    "DNDSR.ODE.ssprk3_invariant",
    "DNDSR.ODE.ssprk3_order3_autonomous_partial",
    "DNDSR.ODE.ssprk3_time_dependent_wrong"
   ],
   "note": "convex combination and invariance proved; the order claim holds for autonomous right-hand sides only, since the stage times are wrong (ssprk3_time_dependent_wrong)"
  },
  {
   "property": "C38",
   "status": "partial",
   "theorems": [
    "DNDSR.ODE.sdirk_step",
    "DNDSR.ODE.sdirkTableau_sized",
    "DNDSR.ODE.sdirk4_conditions",
    "DNDSR.ODE.sdirk4_order4",
    "DNDSR.ODE.sdirk4_zeta",
    "DNDSR.ODE.esdirk4_conditions",
    "DNDSR.ODE.esdirk4_second_order_off"
   ],
   "note": "the three stage tableau satisfies all conditions as a function of its parameter; the six stage tableau has a mistyped coefficient and misses the second order condition by 9e-9 (esdirk4_second_order_off)"
  },
  {
   "property": "C39",
   "status": "proved",
   "theorems": [
    "DNDSR.Gas.prim2cons_gas",
    "DNDSR.Gas.cons2prim_gas",
    "DNDSR.Gas.prim_cons_prim",
    "DNDSR.Gas.cons_prim_cons",
    "DNDSR.Gas.thermal_gas"
   ],
   "note": "exact arithmetic; any ordered field, any dimension"
  },
  {
   "property": "C40",
   "status": "proved",
   "theorems": [
    "DNDSR.Gas.left_right",
    "DNDSR.Gas.right_left",
    "DNDSR.Gas.right_eigen"
   ],
   "note": "exact arithmetic; any dimension"
  },
  {
   "property": "C41",
   "status": "partial",
   "theorems": [
    "DNDSR.Gas.flux_consistent_exact",
    "DNDSR.Gas.hllep_consistent",
    "DNDSR.Gas.hllc_consistent_partial",
    "DNDSR.Gas.hllc_moving_mesh_wrong"
   ],
   "note": "Roe variants exact; HLLEP up to its guard against division by zero; HLLC for faces that do not move along their normal, and false otherwise (hllc_moving_mesh_wrong)"
  },
  {
   "property": "C42",
   "status": "proved",
   "theorems": [
    "DNDSR.Gas.physFlux_eq",
    "DNDSR.Gas.flux_increment_deriv"
   ],
   "note": "real numbers"
  },
  {
   "property": "C43",
   "status": "proved",
   "theorems": [
    "DNDSR.Gas.ratio_floor",
    "DNDSR.Gas.ratio_convex_total",
    "DNDSR.Gas.ratio_convex_keeps",
    "DNDSR.Gas.ratio_root_total",
    "DNDSR.Gas.ratio_rejects_increase"
   ],
   "note": "real numbers; beyond the claim, no abort when the density stays positive and the old energy is above the floor by a rounding guard; the root formula scales energy increasing updates to zero (ratio_rejects_increase)"
  },
  {
   "property": "C44",
   "status": "proved",
   "theorems": [
    "DNDSR.Gas.gradCons2Prim_deriv",
    "DNDSR.Gas.gradVelo_deriv"
   ],
   "note": "real numbers"
  },
  {
   "property": "C45",
   "status": "proved",
   "theorems": [
    "DNDSR.Lim.minmod_spec",
    "DNDSR.Lim.vanLeer_spec",
    "DNDSR.Lim.wbap_spec",
    "DNDSR.Lim.wbapCut_spec"
   ],
   "note": "real numbers"
  },
  {
   "property": "C46",
   "status": "proved",
   "theorems": [
    "DNDSR.Lim.multi_zero",
    "DNDSR.Lim.multi_bounds",
    "DNDSR.Lim.multi_agree",
    "DNDSR.Lim.multi_neg"
   ],
   "note": "real numbers; any number of candidates"
  },
  {
   "property": "C47",
   "status": "partial",
   "theorems": [
    "DNDSR.Shape.getNj_sum",
    "DNDSR.Shape.getNj_nodes_partial",
    "DNDSR.Shape.getNj_apex",
    "DNDSR.Shape.getDiNj_jet",
    "DNDSR.Shape.getD01Nj_jet",
    "DNDSR.Shape.shapeFunc_defined",
    "DNDSR.Shape.jacobian_derivative",
    "DNDSR.Shape.guard_near"
   ],
   "note": "real numbers; complete except at the apex of a pyramid, where the code moves the point by 1e-15 and the values are one and zero up to 3e-15 (getNj_apex); derivatives where the moved point does not jump"
  },
  {
   "property": "C48",
   "status": "proved",
   "theorems": [
    "DNDSR.Elem.face_lists_valid",
    "DNDSR.Elem.face_extract",
    "DNDSR.Elem.face_edges_opposite",
    "DNDSR.Elem.face_ends_opposite",
    "DNDSR.Elem.faces_outward",
    "DNDSR.Elem.faces_distinct"
   ],
   "note": ""
  },
  {
   "property": "C49",
   "status": "proved",
   "theorems": [
    "DNDSR.Quad.integration_exact",
    "DNDSR.Quad.integration_no_scheme"
   ],
   "note": "real numbers, decimals of the tables taken literally (their rounding to double is not modelled); orders 0 to 6, the bound is 2e-14 times the sum of the coefficient magnitudes; any other order silently integrates to nothing (integration_no_scheme)"
  },
  {
   "property": "C50",
   "status": "proved",
   "theorems": [
    "DNDSR.Bits.get_is_field",
    "DNDSR.Bits.pair_fields",
    "DNDSR.Bits.quad_fields",
    "DNDSR.Bits.batch_roundtrip"
   ],
   "note": ""
  },
  {
   "property": "C51",
   "status": "partial",
   "theorems": [
    "DNDSR.Elem.order_queries_partial",
    "DNDSR.Elem.isO1_ranks_disagree"
   ],
   "note": "ranks answer about their own cells only; they disagree when the mesh mixes orders across ranks"
  },
  {
   "property": "C52",
   "status": "proved",
   "theorems": [
    "DNDSR.Defines.splitSString_spec",
    "DNDSR.Defines.splitSStringClean_spec",
    "DNDSR.Defines.sstringHasSuffix_spec"
   ],
   "note": ""
  },
  {
   "property": "C53",
   "status": "partial",
   "theorems": [
    "DNDSR.Sched.pull_oneByOne_completes",
    "DNDSR.Sched.pull_oneByOne_starts",
    "DNDSR.Sched.push_oneByOne_completes_partial",
    "DNDSR.Sched.push_oneByOne_starts",
    "DNDSR.Sched.allAtOnce_completes",
    "DNDSR.Sched.push_oneByOne_deadlock"
   ],
   "note": "pulls complete for every communication pattern; one-by-one pushes are proved to complete only when sends are buffered, and deadlock on three ranks otherwise (push_oneByOne_deadlock)"
  },
  {
   "property": "C54",
   "status": "proved",
   "theorems": [
    "DNDSR.Elem.elevation_nodes",
    "DNDSR.Elem.elevation_faces",
    "DNDSR.Elem.elevation_edges",
    "DNDSR.Elem.bisection_measure",
    "DNDSR.Elem.bisection_conforming"
   ],
   "note": ""
  },
  {
   "property": "C55",
   "status": "proved",
   "theorems": [
    "DNDSR.ODE.limitDt_bound"
   ],
   "note": "exact arithmetic"
  },
  {
   "property": "C56",
   "status": "partial",
   "theorems": [
    "DNDSR.ODE.vbdfPP_residual_partial",
    "DNDSR.ODE.bdfPP_ignores_rhs",
    "DNDSR.ODE.vbdfPP_stale_rhs"
   ],
   "note": "false for the constant step variant, whose residual ignores the right-hand side; for the variable step variant the residual is that of the plain step for the right-hand side the limiter callback writes"
  },
  {
   "property": "C57",
   "status": "proved",
   "theorems": [
    "DNDSR.Gas.roe_identity",
    "DNDSR.Gas.waves_jump",
    "DNDSR.Gas.roe_property",
    "DNDSR.Gas.roe_upwind"
   ],
   "note": "real numbers"
  },
  {
   "property": "C58",
   "status": "partial",
   "theorems": [
    "DNDSR.Gas.roe_mirror",
    "DNDSR.Gas.hllep_mirror_wrong",
    "DNDSR.Gas.hllc_mirror_partial",
    "DNDSR.Gas.hllc_mirror_mean",
    "DNDSR.Gas.hllc_collision_mirror_wrong",
    "DNDSR.Gas.hllc_contact_mirror_wrong"
   ],
   "note": "all Roe schemes; HLLC unless the means collide faster than sound or the contact stands still away from the means, where it is false (hllc_collision_mirror_wrong, hllc_contact_mirror_wrong); false for HLLEP (hllep_mirror_wrong)"
  },
  {
   "property": "C59",
   "status": "partial",
   "theorems": [
    "DNDSR.Gas.batch_agrees_partial",
    "DNDSR.Gas.batch_m1_wrong"
   ],
   "note": "every scheme but Roe_M1, for which it is false (batch_m1_wrong)"
  },
  {
   "property": "C60",
   "status": "proved",
   "theorems": [
    "DNDSR.Gas.visc_reciprocal",
    "DNDSR.Gas.visc_adiabatic",
    "DNDSR.Gas.visc_heat",
    "DNDSR.Gas.visc_rigid",
    "DNDSR.Gas.visc_dilation",
    "DNDSR.Gas.qcr_formula",
    "DNDSR.Gas.visc_dissipation"
   ],
   "note": "real numbers; quadratic correction in two and three dimensions, the only ones the code instantiates"
  },
  {
   "property": "C61",
   "status": "proved",
   "theorems": [
    "DNDSR.Lim.wbapNorm_hull",
    "DNDSR.Lim.wbapOrth_hull",
    "DNDSR.Lim.norm_total",
    "DNDSR.Lim.wbapNorm_zero",
    "DNDSR.Lim.memm_spec",
    "DNDSR.Lim.multi2D_hull",
    "DNDSR.Lim.multiOrth_hull",
    "DNDSR.Lim.memmMulti_min",
    "DNDSR.Lim.memmMulti_conv",
    "DNDSR.Lim.wbapNorm_agree",
    "DNDSR.Lim.wbapOrth_agree",
    "DNDSR.Lim.multi2D_agree",
    "DNDSR.Lim.multiOrth_agree",
    "DNDSR.Lim.norm_turn_2D",
    "DNDSR.Lim.norm_turn_3D",
    "DNDSR.Lim.memm_turn_2D",
    "DNDSR.Lim.memm_turn_3D"
   ],
   "note": "real numbers; two-way agreement for vectors with an entry of at least 1e-50; orientation for homogeneous polynomials written in the monomials of the reconstruction basis with equal length scales on all axes"
  },
  {
   "property": "C62",
   "status": "proved",
   "theorems": [
    "DNDSR.Jet.fill2D_jet",
    "DNDSR.Jet.fill3D_jet"
   ],
   "note": "real numbers; up to third order, the largest the tables have"
  },
  {
   "property": "C63",
   "status": "proved",
   "theorems": [
    "DNDSR.Jet.linMap2_jet",
    "DNDSR.Jet.linMap3_jet",
    "DNDSR.Jet.transDi3_back",
    "DNDSR.Jet.transDi2_back",
    "DNDSR.Jet.transDi3_jet"
   ],
   "note": "real numbers, smooth functions; two dimensional round trip needs a rotation that keeps the plane"
  },
  {
   "property": "C64",
   "status": "proved",
   "theorems": [
    "DNDSR.Jet.diffBaseValue3_jet",
    "DNDSR.Jet.diffBaseValue2_jet",
    "DNDSR.Jet.diffBaseValue_abort",
    "DNDSR.Jet.baseMoment_mean"
   ],
   "note": "real numbers; two dimensions for points of the plane of the cell; quadrature points and weights arbitrary; zero mean stated for three dimensions"
  },
  {
   "property": "C65",
   "status": "partial",
   "theorems": [
    "DNDSR.Jet.invMap_jet",
    "DNDSR.Jet.fullMap_jet_partial",
    "DNDSR.Jet.fullMap_second_order_wrong"
   ],
   "note": "real numbers; inverse map complete; the conversion is false for maps with second derivatives (fullMap_second_order_wrong) and proved for the rest"
  },
  {
   "property": "C66",
   "status": "proved",
   "theorems": [
    "DNDSR.Jet.normSym2_jet",
    "DNDSR.Jet.normSym3_jet",
    "DNDSR.Jet.contract_rigid"
   ],
   "note": "real numbers; the power of the weights that the solver uses"
  },
  {
   "property": "C67",
   "status": "partial",
   "theorems": [
    "DNDSR.Shape.getNj_reproduces_partial",
    "DNDSR.Shape.pyramid14_not_quadratic"
   ],
   "note": "real numbers; false for the second order pyramid (pyramid14_not_quadratic), proved for every other type up to its order and for that one up to first order"
  },
  {
   "property": "C68",
   "status": "partial",
   "theorems": [
    "DNDSR.Shape.face_conforming_partial",
    "DNDSR.Shape.face_place_partial",
    "DNDSR.Shape.pyramid14_not_conforming"
   ],
   "note": "real numbers; false on the triangular faces of the second order pyramid (pyramid14_not_conforming), proved for every other face of every type"
  },
  {
   "property": "C69",
   "status": "proved",
   "theorems": [
    "DNDSR.Quad.points_inside",
    "DNDSR.Quad.integration_sum"
   ],
   "note": "real numbers, decimals of the tables taken literally"
  },
  {
   "property": "C70",
   "status": "partial",
   "theorems": [
    "DNDSR.RCM.reorder_permutation",
    "DNDSR.RCM.not_by_degree"
   ],
   "note": "breadth-first order, parts and band widths proved (reorder_permutation); the order by degree is false: the comparison takes the 0 of a vertex not yet numbered for the number of a predecessor (not_by_degree)"
  },
  {
   "property": "C71",
   "status": "proved",
   "theorems": [
    "DNDSR.Faces.faces_global"
   ],
   "note": "boundary zones copied onto faces are not modelled; pulls are taken to deliver the owner's row (C08); the hypothesis that neighbours are held is what the ghost layer built before provides"
  },
  {
   "property": "C72",
   "status": "proved",
   "theorems": [
    "DNDSR.Ghost.cell2cell_exact",
    "DNDSR.Ghost.cell2cell_symm"
   ],
   "note": "if the call returns; when it does is recover_returns_iff (C73)"
  },
  {
   "property": "C73",
   "status": "proved",
   "theorems": [
    "DNDSR.Ghost.bnd2cell_exact",
    "DNDSR.Ghost.recover_returns_iff",
    "DNDSR.Ghost.bnd2cell_unique"
   ],
   "note": "returning is stated for meshes whose number of ranks times number of cells or nodes of a rank fits int"
  },
  {
   "property": "C74",
   "status": "proved",
   "theorems": [
    "DNDSR.Ghost.ghost_layer",
    "DNDSR.Ghost.node2cell_rows",
    "DNDSR.Ghost.mesh_built"
   ],
   "note": "pulls are taken to deliver the owner's row (C08); the first cell of a boundary element has to be on its rank or touch it; coordinates and boundary zones copied onto faces are not modelled"
  },
  {
   "property": "C75",
   "status": "proved",
   "theorems": [
    "DNDSR.Flux.rhs_own",
    "DNDSR.Flux.conserved",
    "DNDSR.Flux.wall_sum",
    "DNDSR.Flux.gather_self_adjacent"
   ],
   "note": "exact arithmetic; the flux of a face is an input that all ranks holding the face agree on; source terms are not part of the model; in a mesh one cell thick in a periodic direction, where a cell is on both sides of a face, the OpenMP version adds the flux twice (gather_self_adjacent)"
  },
  {
   "property": "C76",
   "status": "proved",
   "theorems": [
    "DNDSR.Sweep.system_exists",
    "DNDSR.Sweep.matVec_global",
    "DNDSR.Sweep.sgs_sweep",
    "DNDSR.Sweep.precondition_sweeps",
    "DNDSR.Sweep.precondition_solves",
    "DNDSR.Sweep.precondition_contracts",
    "DNDSR.Sweep.lusgs_factors",
    "DNDSR.Sweep.lusgs_one_rank",
    "DNDSR.Sweep.self_coupling"
   ],
   "note": "exact arithmetic; what a neighbour does to a cell through a face is an input; for a cell that is its own neighbour the product has a coupling the sweeps leave out (self_coupling), such meshes are excluded; the direct preconditioner is not part of it"
  },
  {
   "property": "C77",
   "status": "proved",
   "theorems": [
    "DNDSR.Sweep.history_sound",
    "DNDSR.Sweep.inverse_undoes",
    "DNDSR.Sweep.stale_inverse"
   ],
   "note": "exact arithmetic; a block written after an inversion keeps the old inverse (stale_inverse), so the order of calls is a hypothesis"
  },
  {
   "property": "C78",
   "status": "proved",
   "theorems": [
    "DNDSR.Sweep.setup_returns",
    "DNDSR.Sweep.prepare_defined",
    "DNDSR.Sweep.direct_passes",
    "DNDSR.Sweep.direct_solves",
    "DNDSR.Sweep.direct_one_rank",
    "DNDSR.Sweep.incomplete_passes",
    "DNDSR.Sweep.dominant_prepared",
    "DNDSR.Sweep.ordering_collectives_mismatch",
    "DNDSR.Sweep.double_face",
    "DNDSR.Sweep.one_rank_reports_zero",
    "DNDSR.Sweep.asMatrix_rotated"
   ],
   "note": "exact arithmetic; what Metis and Boost return is assumed to be a pair of inverse permutations; couplings are linear; without OpenMP; limits proved: two cells with two common faces keep only one of them in the matrix (double_face), orderings 3 and 4 make ranks with and without cells take part in different numbers of reductions (ordering_collectives_mismatch), on one rank no change is reported whether solved or not (one_rank_reports_zero)"
  },
  {
   "property": "C79",
   "status": "proved",
   "theorems": [
    "DNDSR.Direct.dominant_factorizes",
    "DNDSR.Direct.dominant_direct_solve",
    "DNDSR.Direct.weak_dominance_aborts"
   ],
   "note": "exact arithmetic; strictness is needed (weak_dominance_aborts)"
  },
  {
   "property": "C80",
   "status": "proved",
   "theorems": [
    "DNDSR.Rec.row_least_squares2",
    "DNDSR.Rec.row_least_squares3",
    "DNDSR.Rec.row_regular2",
    "DNDSR.Rec.row_regular3"
   ],
   "note": "exact arithmetic; greenGauss1Weight is 0, as by default; the inverse routine is an input, the minimum is proved when what it returns is the inverse; a cell is not its own neighbour; in two dimensions the points of a face lie in the plane of the cells"
  },
  {
   "property": "C81",
   "status": "proved",
   "theorems": [
    "DNDSR.RecIt.record_residual",
    "DNDSR.RecIt.record_residual_zero",
    "DNDSR.RecIt.iter_jacobi",
    "DNDSR.RecIt.iter_sor",
    "DNDSR.RecIt.iter_relaxes",
    "DNDSR.RecIt.step_fixed_iff",
    "DNDSR.RecIt.steps_contract",
    "DNDSR.RecIt.solves_least_squares2",
    "DNDSR.RecIt.solves_least_squares3",
    "DNDSR.RecIt.rows_exist",
    "DNDSR.RecIt.onmesh_exists",
    "DNDSR.RecIt.zero_residual_drops_boundary",
    "DNDSR.RecIt.sweep_leaves_solution"
   ],
   "note": "exact arithmetic; with SORInstead boundary values must not depend on the coefficients, otherwise the sweep leaves a solution (sweep_leaves_solution); with uRecIsZero the boundary faces are dropped from the recorded residual (zero_residual_drops_boundary); contraction has the rate of one cell's update as hypothesis"
  },
  {
   "property": "C82",
   "status": "proved",
   "theorems": [
    "DNDSR.RecIt.diff_linear",
    "DNDSR.RecIt.residual_sub",
    "DNDSR.RecIt.correction_solves",
    "DNDSR.RecIt.sor_sweep",
    "DNDSR.RecIt.sor_fixed_iff",
    "DNDSR.RecIt.sweep_scales"
   ],
   "note": "exact arithmetic; the boundary difference callback is taken to give differences of the boundary values; with a relaxation factor other than 1 what a sweep stops at is not the solution (sweep_scales)"
  },
  {
   "property": "C83",
   "status": "proved",
   "theorems": [
    "DNDSR.Pos.limited_positive",
    "DNDSR.Pos.limited_all",
    "DNDSR.Pos.turbulence_kept",
    "DNDSR.Pos.turbulence_not_kept"
   ],
   "note": "exact arithmetic; 1 < gamma <= 2; Room: the floor is not so near that the guards against division by zero matter; in two-equation models limiting to a lower degree can leave a further variable negative (turbulence_not_kept)"
  },
  {
   "property": "C84",
   "status": "proved",
   "theorems": [
    "DNDSR.Pos.alpha_safe",
    "DNDSR.Pos.alpha_all",
    "DNDSR.Pos.increment_keeps",
    "DNDSR.Pos.history_keeps",
    "DNDSR.Pos.recPart_valid",
    "DNDSR.Pos.power_zero_unsafe",
    "DNDSR.Pos.ransRelax_scales_energy"
   ],
   "note": "exact arithmetic; whole steps for floors that are not relaxed, gamma < 2, and without RANSRelax in two-equation models, where it scales the energy instead (ransRelax_scales_energy); the power of the factor is at least 1 after rounding, otherwise the factor is 0.99999 whatever is needed (power_zero_unsafe)"
  },
  {
   "property": "C85",
   "status": "proved",
   "theorems": [
    "DNDSR.Reorder.reorder_same_mesh",
    "DNDSR.Reorder.ranks_of_built",
    "DNDSR.Reorder.faces_of_ranks",
    "DNDSR.Reorder.mesh_built_reordered"
   ],
   "note": "pulls are taken to deliver the owner's row (C08); as called before the faces are built and without node2cell in local numbers, the blocks for those are not modelled; number of ranks times number of cells or nodes of a rank fits int"
  },
  {
   "property": "C86",
   "status": "proved",
   "theorems": [
    "DNDSR.Dt.steps_of_mesh",
    "DNDSR.Dt.step_bounds",
    "DNDSR.Dt.euler_step_physical",
    "DNDSR.Dt.onmesh_exists",
    "DNDSR.Dt.boundary_speed_ignored"
   ],
   "note": "exact arithmetic; positivity for the first-order scheme (cell means on both sides of a face) with the Lax-Friedrichs flux; the speed of a boundary face is taken from the inside only, so a faster gas behind the boundary makes the density negative at CFL 1 (boundary_speed_ignored), which is why that case is excluded"
  },
  {
   "property": "C87",
   "status": "proved",
   "theorems": [
    "DNDSR.Elev.elevation",
    "DNDSR.Elev.elevated_cell_sees",
    "DNDSR.Elev.elevated_built",
    "DNDSR.Elev.ranks_have"
   ],
   "note": "exact arithmetic; pulls are taken to deliver the owner's row (C08); a cell that contains the nodes of an edge or face of another cell has it, otherwise the code aborts; new nodes of one cell are at least 1e-10 apart; in periodic meshes cells around an edge or face agree where its middle is (two layers in each direction); a boundary element's first cell is on its rank, otherwise the code aborts"
  },
  {
   "property": "C88",
   "status": "proved",
   "theorems": [
    "DNDSR.Dof.step_holds",
    "DNDSR.Dof.vectors",
    "DNDSR.Dof.same_on_any_ranks",
    "DNDSR.Dof.minimum_spec",
    "DNDSR.Dof.scaled_by_field",
    "DNDSR.Dof.scaled_own",
    "DNDSR.Dof.Demo.scaled_own_stale"
   ],
   "note": "exact arithmetic, so sums do not depend on their order; an exchange is taken to deliver the owner's row (C08); multiplying by a std::vector of factors scales own rows only and leaves copies stale (scaled_own_stale)"
  },
  {
   "property": "C89",
   "status": "proved",
   "theorems": [
    "DNDSR.Dof.time_average",
    "DNDSR.Dof.average_between"
   ],
   "note": "exact arithmetic; the guard 1e-200 added to every step is part of the weights"
  },
  {
   "property": "C90",
   "status": "proved",
   "theorems": [
    "DNDSR.Dof.norm_of_mesh",
    "DNDSR.Dof.max_norm_of_mesh",
    "DNDSR.Dof.rec_norm_of_mesh",
    "DNDSR.Dof.rec_max_of_mesh",
    "DNDSR.Dof.rec_norm_three",
    "DNDSR.Dof.average_after_root"
   ],
   "note": "exact arithmetic; without OpenMP; EvaluateRecNorm with P = 3 adds the ranks' maxima (rec_norm_three) and the average with P = 2 divides after the root (average_after_root), so those two cases are excluded"
  },
  {
   "property": "C91",
   "status": "proved",
   "theorems": [
    "DNDSR.Dt.smooth_of_mesh",
    "DNDSR.Dt.smooth_cell",
    "DNDSR.Dt.smooth_all",
    "DNDSR.Dt.smooth_fixed",
    "DNDSR.Dt.pseudo_steps"
   ],
   "note": "exact arithmetic; an exchange is taken to deliver the owner's entry (C07); the entries of ghost cells are left as they were before the exchange, as in the code"
  },
  {
   "property": "C92",
   "status": "proved",
   "theorems": [
    "DNDSR.Faces.zones_global",
    "DNDSR.Faces.faces_asserted",
    "DNDSR.Faces.periodic_bnd2face_order"
   ],
   "note": "the exchange of the face information delivers the owner's entry (C08); which of the two elements of a periodic face are given a face depends on their order (periodic_bnd2face_order), so bnd2face of a periodic element is its face or -1"
  },
  {
   "property": "C93",
   "status": "proved",
   "theorems": [
    "DNDSR.Bnd.boundary_mesh",
    "DNDSR.Bnd.boundary_sides"
   ],
   "note": "pulls deliver the owner's rows (C07); boundary_sides takes the faces and zones from C71 and C92"
  },
  {
   "property": "C94",
   "status": "proved",
   "theorems": [
    "DNDSR.BC.far_state",
    "DNDSR.BC.far_freestream",
    "DNDSR.BC.slip_state",
    "DNDSR.BC.noSlip_state",
    "DNDSR.BC.out_state",
    "DNDSR.BC.in_state",
    "DNDSR.BC.inlet_state"
   ],
   "note": "boundary types of single test cases (BCSpecial) are not modelled; exact real arithmetic"
  },
  {
   "property": "C95",
   "status": "partial",
   "theorems": [
    "DNDSR.BC.roe_wall",
    "DNDSR.BC.batch_wall",
    "DNDSR.BC.hllc_wall_partial",
    "DNDSR.BC.wall_tight_partial",
    "DNDSR.BC.hllc_wall_leaks",
    "DNDSR.BC.hllep_wall_leaks"
   ],
   "note": "proved for all Roe variants; HLLC only for impacts slower than sound and faces that do not move along their normal; false for HLLEP and for HLLC above that (hllep_wall_leaks, hllc_wall_leaks)"
  },
  {
   "property": "C96",
   "status": "proved",
   "theorems": [
    "DNDSR.BRec.integral_total",
    "DNDSR.BRec.anchor_nearest",
    "DNDSR.BRec.profile_total",
    "DNDSR.BRec.profile_value",
    "DNDSR.BRec.profile_between",
    "DNDSR.BRec.radial_rise",
    "DNDSR.BRec.nodes_uniform",
    "DNDSR.BRec.flat_face_undefined"
   ],
   "note": "faces all of whose nodes are at one radius are excluded: they make the profile undefined (flat_face_undefined); exact real arithmetic"
  },
  {
   "property": "C97",
   "status": "partial",
   "theorems": [
    "DNDSR.Zones.read_zones",
    "DNDSR.Zones.duplicate_aborts",
    "DNDSR.Zones.unknown_type_refused",
    "DNDSR.Zones.write_read_partial",
    "DNDSR.Zones.integration_lost"
   ],
   "note": "the integration option of open boundaries and symmetry planes is not written (integration_lost); everything else is restored"
  },
  {
   "property": "C98",
   "status": "partial",
   "theorems": [
    "DNDSR.PSer.pair_roundtrip_partial",
    "DNDSR.PSer.wrong_number_aborts",
    "DNDSR.PSer.mesh_roundtrip",
    "DNDSR.PSer.mesh_mismatch_aborts",
    "DNDSR.PSer.periodicity_roundtrip",
    "DNDSR.PSer.matrix_roundtrip_partial",
    "DNDSR.PSer.nonuniform_matrix_unreadable",
    "DNDSR.PSer.matrix_rows_unchecked",
    "DNDSR.PSer.restart_found",
    "DNDSR.PSer.restart_files",
    "DNDSR.PSer.restart_ranks",
    "DNDSR.PSer.other_restart",
    "DNDSR.PSer.other_restart_aborts"
   ],
   "note": "mesh_roundtrip is complete; distributed arrays have the exceptions of C16 and mappings made by pulling; matrices with their own numbers of rows cannot be read as uniform ones (nonuniform_matrix_unreadable); text files, one per rank"
  },
  {
   "property": "C99",
   "status": "proved",
   "theorems": [
    "DNDSR.LimProc.limiterC_same",
    "DNDSR.LimProc.limiter3_same",
    "DNDSR.LimProc.limiterC_values",
    "DNDSR.LimProc.limiter3_values",
    "DNDSR.LimProc.limiterC_polynomial",
    "DNDSR.LimProc.limiter3_linear",
    "DNDSR.LimProc.limiter_not_steeper",
    "DNDSR.LimProc.norm_3d_fails",
    "DNDSR.LimProc.rotation_ignored"
   ],
   "note": "reals; normWBAP in three dimensions never returns above the first degree (norm_3d_fails); vectors are not turned across periodic boundaries (rotation_ignored); the smoothness indicator is an input"
  }
 ]
}