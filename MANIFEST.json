{
 "claims": [
  {
   "property": "C01",
   "status": "proved",
   "theorems": [
    "Marxs.C01_probability_never_increases",
    "Marxs.C01_probability_in_unit_interval",
    "Marxs.C01_bad_factor_rejected",
    "Marxs.C01_bad_factor_valueError",
    "Marxs.C01_bad_filter_valueError"
   ],
   "note": "Survival probability stays in [0,1] and never increases"
  },
  {
   "property": "C02",
   "status": "proved",
   "theorems": [
    "Marxs.C02_miss_unchanged",
    "Marxs.C02_no_hit_identity",
    "Marxs.C02_hit_updated",
    "Marxs.C02_no_action_attributeError",
    "Marxs.C02_each_unchanged",
    "Marxs.C02_each_missing_column_keyError"
   ],
   "note": "Photons that miss an element are left alone"
  },
  {
   "property": "C03",
   "status": "proved",
   "theorems": [
    "Marxs.C03_container_is_schedule",
    "Marxs.C03_hook_return_ignored",
    "Marxs.C03_nesting_irrelevant",
    "Marxs.C03_same_elements_same_result",
    "Marxs.C03_split",
    "Marxs.C03_keepcol_snapshots",
    "Marxs.C03_keepcol_one_per_element"
   ],
   "note": "A Sequence is the composition of its elements, with hooks called around every element"
  },
  {
   "property": "C04",
   "status": "partial",
   "theorems": [
    "Marxs.C04_stop_at_first",
    "Marxs.C04_default_search",
    "Marxs.C04_all_depths_false",
    "Marxs.C04_all_depths_partial"
   ],
   "note": "default search proved for all containers without nested matches; with nested matches the code misses objects (C04_all_depths_false)"
  },
  {
   "property": "C05",
   "status": "proved",
   "theorems": [
    "Marxs.C05_first_index",
    "Marxs.C05_none"
   ],
   "note": "first_of_class_top_level points at the first top-level element that is or contains the class"
  },
  {
   "property": "C06",
   "status": "proved",
   "theorems": [
    "Marxs.C06_one_element_per_position",
    "Marxs.C06_placement",
    "Marxs.C06_placement_plain",
    "Marxs.C06_arguments",
    "Marxs.C06_default_name",
    "Marxs.C06_shear_rejected"
   ],
   "note": "Parallel places one element per elem_pos with the documented transformation and consecutive ids"
  },
  {
   "property": "C07",
   "status": "partial",
   "theorems": [
    "Marxs.C07_elements_stay_iff_partial",
    "Marxs.C07_move_center_moves_elements"
   ],
   "note": "proved for placements that commute with the change (exact condition); in general moving the center moves the elements (C07_move_center_moves_elements)"
  },
  {
   "property": "C08",
   "status": "proved",
   "theorems": [
    "Marxs.C08_format_positions",
    "Marxs.C08_format_positions_domain"
   ],
   "note": "KeepCol.format_positions drops only repeated positions"
  },
  {
   "property": "C09",
   "status": "proved",
   "theorems": [
    "Marxs.C09_propagate_along_ray",
    "Marxs.C09_propagate_add",
    "Marxs.C09_propagate_undo"
   ],
   "note": "Propagator moves photons along their direction and can be undone"
  },
  {
   "property": "C10",
   "status": "proved",
   "theorems": [
    "Marxs.C10_plane_intersect",
    "Marxs.C10_independent_of_start"
   ],
   "note": "FinitePlane.intersect reports exactly the rays that hit the rectangle going forward"
  },
  {
   "property": "C11",
   "status": "proved",
   "theorems": [
    "Marxs.C11_local",
    "Marxs.C11_parallel",
    "Marxs.C11_global",
    "Marxs.C11_bad_direction",
    "Marxs.C11_surface"
   ],
   "note": "Cylinder.intersect reports the first valid hit of the ray on the mantle"
  },
  {
   "property": "C12",
   "status": "proved",
   "theorems": [
    "Marxs.C12_angle_between",
    "Marxs.C12_full_turns",
    "Marxs.C12_equal_borders",
    "Marxs.C12_complement"
   ],
   "note": "angle_between decides membership in an arc modulo 2 pi"
  },
  {
   "property": "C13",
   "status": "proved",
   "theorems": [
    "Marxs.C13_anglediff",
    "Marxs.C13_full_turns",
    "Marxs.C13_same_arc"
   ],
   "note": "anglediff is the arc length from the first to the second angle"
  },
  {
   "property": "C14",
   "status": "proved",
   "theorems": [
    "Marxs.C14_roundtrip",
    "Marxs.C14_mixture_rejected",
    "Marxs.C14_points",
    "Marxs.C14_scale_invariant",
    "Marxs.C14_rounding_window",
    "Marxs.C14_distance"
   ],
   "note": "Euclidean and homogeneous coordinates convert back and forth"
  },
  {
   "property": "C15",
   "status": "proved",
   "theorems": [
    "Marxs.C15_intersection",
    "Marxs.C15_parallel",
    "Marxs.C15_two_points",
    "Marxs.C15_any_point"
   ],
   "note": "Pluecker line/plane intersection returns the common point"
  },
  {
   "property": "C16",
   "status": "proved",
   "theorems": [
    "Marxs.C16_axangle_rotation",
    "Marxs.C16_axangle_add",
    "Marxs.C16_axangle_array",
    "Marxs.C16_ex2vec_parallel",
    "Marxs.C16_ex2vec_rotation"
   ],
   "note": "ex2vec_fix and axangle2mat produce rotation matrices"
  },
  {
   "property": "C17",
   "status": "proved",
   "theorems": [
    "Marxs.C17_matrix",
    "Marxs.C17_transport",
    "Marxs.C17_same_direction",
    "Marxs.C17_reversible"
   ],
   "note": "Parallel transport keeps polarization transverse and normalised"
  },
  {
   "property": "C18",
   "status": "proved",
   "theorems": [
    "Marxs.C18_polarization"
   ],
   "note": "polarization_vectors are unit vectors perpendicular to the photon direction"
  },
  {
   "property": "C19",
   "status": "proved",
   "theorems": [
    "Marxs.C19_groove_direction",
    "Marxs.C19_grating_equation",
    "Marxs.C19_evanescent",
    "Marxs.C19_zero_order",
    "Marxs.C19_undo",
    "Marxs.C19_polarization",
    "Marxs.C19_blaze",
    "Marxs.C19_flat_and_bent"
   ],
   "note": "Diffraction obeys the grating equation"
  },
  {
   "property": "C20",
   "status": "proved",
   "theorems": [
    "Marxs.C20_cat_symmetric",
    "Marxs.C20_blaze_side",
    "Marxs.C20_blaze_symmetric"
   ],
   "note": "CAT gratings diffract positive orders towards the blazed side"
  },
  {
   "property": "C21",
   "status": "proved",
   "theorems": [
    "Marxs.C21_perfect_lens",
    "Marxs.C21_reflectivity",
    "Marxs.C21_central_ray",
    "Marxs.C21_polarization",
    "Marxs.C21_thin_lens"
   ],
   "note": "PerfectLens sends all photons of one direction through one focal point"
  },
  {
   "property": "C22",
   "status": "proved",
   "theorems": [
    "Marxs.C22_radial_scatter",
    "Marxs.C22_radial_defined",
    "Marxs.C22_radial_inplane",
    "Marxs.C22_radial_perp",
    "Marxs.C22_radial_both",
    "Marxs.C22_gauss_scatter",
    "Marxs.C22_jitter"
   ],
   "note": "Scattering and jitter keep directions normalised and polarization transverse"
  },
  {
   "property": "C23",
   "status": "proved",
   "theorems": [
    "Marxs.C23_fresnel_false",
    "Marxs.C23_specular",
    "Marxs.C23_brewster",
    "Marxs.C23_too_bright"
   ],
   "note": "A Brewster mirror reflects specularly"
  },
  {
   "property": "C24",
   "status": "proved",
   "theorems": [
    "Marxs.C24_bin_interval",
    "Marxs.C24_every_draw",
    "Marxs.C24_value",
    "Marxs.C24_draw_zero",
    "Marxs.C24_rejected"
   ],
   "note": "RandomArbitraryPdf draws bin i for a set of random numbers of length proportional to its weight"
  },
  {
   "property": "C25",
   "status": "proved",
   "theorems": [
    "Marxs.C25_efficiency_file",
    "Marxs.C25_interpolate_table",
    "Marxs.C25_no_probability",
    "Marxs.C25_order_selector",
    "Marxs.C25_order_selector_rejects"
   ],
   "note": "Order selectors always return a listed order and the tabulated total efficiency"
  },
  {
   "property": "C26",
   "status": "proved",
   "theorems": [
    "Marxs.C26_exactly_one",
    "Marxs.C26_proportional"
   ],
   "note": "MultiAperture sends every photon through exactly one sub-aperture, in proportion to area"
  },
  {
   "property": "C27",
   "status": "proved",
   "theorems": [
    "Marxs.C27_rectangle_inside",
    "Marxs.C27_rectangle_uniform",
    "Marxs.C27_rectangle_area",
    "Marxs.C27_projection",
    "Marxs.C27_circle_inside",
    "Marxs.C27_circle_area",
    "Marxs.C27_circle_checks"
   ],
   "note": "Aperture points lie inside the aperture"
  },
  {
   "property": "C28",
   "status": "proved",
   "theorems": [
    "Marxs.C28_pixels",
    "Marxs.C28_any_size",
    "Marxs.C28_hit",
    "Marxs.C28_circular"
   ],
   "note": "Detector pixel numbers match the place of the hit"
  },
  {
   "property": "C29",
   "status": "proved",
   "theorems": [
    "Marxs.C29_stack_runs_layers_in_order",
    "Marxs.C29_miss_unchanged",
    "Marxs.C29_hit_position",
    "Marxs.C29_factors_multiply"
   ],
   "note": "FlatStack intersects once and applies its elements one after the other"
  },
  {
   "property": "C30",
   "status": "proved",
   "theorems": [
    "Marxs.C30_times",
    "Marxs.C30_other"
   ],
   "note": "Sources emit photons at equally spaced times inside the exposure"
  },
  {
   "property": "C31",
   "status": "proved",
   "theorems": [
    "Marxs.C31_poisson",
    "Marxs.C31_first_round",
    "Marxs.C31_never_returns",
    "Marxs.C31_never_returns_short"
   ],
   "note": "poisson_process returns increasing times inside the exposure"
  },
  {
   "property": "C32",
   "status": "partial",
   "theorems": [
    "Marxs.C32_disk",
    "Marxs.C32_spherical",
    "Marxs.C32_position_partial",
    "Marxs.C32_inside_partial",
    "Marxs.C32_spherical_hole_not_empty"
   ],
   "note": "outer radius proved; SphericalDiskSource does not keep the inner radius free (C32_spherical_hole_not_empty)"
  },
  {
   "property": "C33",
   "status": "proved",
   "theorems": [
    "Marxs.C33_effective_area",
    "Marxs.C33_other_photons",
    "Marxs.C33_total",
    "Marxs.C33_fraction"
   ],
   "note": "Effective area and detected fraction are consistent sums"
  },
  {
   "property": "C34",
   "status": "proved",
   "theorems": [
    "Marxs.C34_split",
    "Marxs.C34_all",
    "Marxs.C34_gaps"
   ],
   "note": "CaptureResAeff splits effective area into zero order and dispersed orders without loss"
  },
  {
   "property": "C35",
   "status": "proved",
   "theorems": [
    "Marxs.C35_average_between",
    "Marxs.C35_average_scale",
    "Marxs.C35_weighted_per_order",
    "Marxs.C35_rejected"
   ],
   "note": "Weighted averages of resolving power stay within the range of the input"
  },
  {
   "property": "C36",
   "status": "proved",
   "theorems": [
    "Marxs.C36_roundtrip",
    "Marxs.C36_groups"
   ],
   "note": "RMF rows decode to what was encoded, above the threshold"
  },
  {
   "property": "C37",
   "status": "partial",
   "theorems": [
    "Marxs.C37_full_rmf",
    "Marxs.C37_rmf_partial",
    "Marxs.C37_rmf_shifted",
    "Marxs.C37_rmf_false",
    "Marxs.C37_make_rmf"
   ],
   "note": "proved for first channel number 1; wrong energies otherwise (C37_rmf_false)"
  },
  {
   "property": "C38",
   "status": "proved",
   "theorems": [
    "Marxs.C38_tiling",
    "Marxs.C38_edges",
    "Marxs.C38_order",
    "Marxs.C38_each_energy"
   ],
   "note": "EBOUNDS from edges tile the energy range"
  },
  {
   "property": "C39",
   "status": "proved",
   "theorems": [
    "Marxs.C39_fraction",
    "Marxs.C39_monotone",
    "Marxs.C39_additive",
    "Marxs.C39_full_response",
    "Marxs.C39_fixed_fraction",
    "Marxs.C39_other_side",
    "Marxs.C39_fwhm"
   ],
   "note": "An OSIP factor is a fraction of the response"
  },
  {
   "property": "C40",
   "status": "partial",
   "theorems": [
    "Marxs.C40_effect",
    "Marxs.C40_history_partial",
    "Marxs.C40_unreadable",
    "Marxs.C40_stale_factor",
    "Marxs.C40_history_false"
   ],
   "note": "proved without factors that are constant or zero in earlier steps; otherwise false (C40_history_false)"
  },
  {
   "property": "C41",
   "status": "proved",
   "theorems": [
    "Marxs.C41_neighbours",
    "Marxs.C41_every_energy"
   ],
   "note": "FractionalDistanceOSIP windows of neighbouring orders never overlap"
  },
  {
   "property": "C42",
   "status": "partial",
   "theorems": [
    "Marxs.C42_last_written_partial",
    "Marxs.C42_stale_keyword"
   ],
   "note": "proved for histories that do not assign a varying array to a name that holds a constant; otherwise false (C42_stale_keyword)"
  },
  {
   "property": "C43",
   "status": "proved",
   "theorems": [
    "Marxs.C43_accepts_iff",
    "Marxs.C43_reflexive",
    "Marxs.C43_symmetric",
    "Marxs.C43_transitive",
    "Marxs.C43_ignored",
    "Marxs.C43_errors",
    "Marxs.C43_energy_same",
    "Marxs.C43_energy_accepted",
    "Marxs.C43_tagged"
   ],
   "note": "check_meta_consistent accepts exactly headers with the same configuration"
  },
  {
   "property": "C44",
   "status": "partial",
   "theorems": [
    "Marxs.C44_configured",
    "Marxs.C44_version",
    "Marxs.C44_unrelated",
    "Marxs.C44_all_partial",
    "Marxs.C44_origin_creator_dropped"
   ],
   "note": "all keywords but ORIGIN and CREATOR, which are dropped (C44_origin_creator_dropped)"
  },
  {
   "property": "C45",
   "status": "proved",
   "theorems": [
    "Marxs.C45_quartic_iff",
    "Marxs.C45_parametric_on_torus",
    "Marxs.C45_surjective"
   ],
   "note": "Points from RowlandTorus.parametric lie on the torus"
  },
  {
   "property": "C46",
   "status": "partial",
   "theorems": [
    "Marxs.C46_roundtrip_partial",
    "Marxs.C46_angles_partial",
    "Marxs.C46_top_false",
    "Marxs.C46_spindle_false",
    "Marxs.C46_intersectvalid",
    "Marxs.C46_off_torus"
   ],
   "note": "proved away from top and bottom of the tube and for r < 2R; false there (C46_top_false, C46_spindle_false)"
  },
  {
   "property": "C47",
   "status": "partial",
   "theorems": [
    "Marxs.C47_perpendicular",
    "Marxs.C47_outwards",
    "Marxs.C47_normal_partial",
    "Marxs.C47_top_false",
    "Marxs.C47_zoom_false"
   ],
   "note": "proved away from top and bottom of the tube; false there and with unequal zoom (C47_top_false, C47_zoom_false)"
  },
  {
   "property": "C48",
   "status": "proved",
   "theorems": [
    "Marxs.C48_on_torus",
    "Marxs.C48_geometry",
    "Marxs.C48_center_false"
   ],
   "note": "design_tilted_torus puts focal point and gratings on the torus"
  },
  {
   "property": "C49",
   "status": "partial",
   "theorems": [
    "Marxs.C49_focus_and_grating",
    "Marxs.C49_mirror",
    "Marxs.C49_detector",
    "Marxs.C49_channels_partial",
    "Marxs.C49_channel3_false"
   ],
   "note": "proved for the channel names 1, 2, 1m, 2m; other documented names fail (C49_channel3_false)"
  },
  {
   "property": "C50",
   "status": "partial",
   "theorems": [
    "Marxs.C50_positions_partial",
    "Marxs.C50_covers",
    "Marxs.C50_grid",
    "Marxs.C50_default_z",
    "Marxs.C50_empty_range_false"
   ],
   "note": "proved for ranges that are not empty; no element for equal limits (C50_empty_range_false)"
  },
  {
   "property": "C51",
   "status": "partial",
   "theorems": [
    "Marxs.C51_radius",
    "Marxs.C51_number",
    "Marxs.C51_arc",
    "Marxs.C51_no_overlap_partial",
    "Marxs.C51_overlap_false",
    "Marxs.C51_short_arc",
    "Marxs.C51_phi_doc_false",
    "Marxs.C51_on_circle"
   ],
   "note": "exact condition for no overlap; false in general (C51_overlap_false)"
  },
  {
   "property": "C52",
   "status": "partial",
   "theorems": [
    "Marxs.C52_last_wins",
    "Marxs.C52_history_irrelevant",
    "Marxs.C52_never_fails",
    "Marxs.C52_reset_partial",
    "Marxs.C52_reset_false",
    "Marxs.C52_global_effect",
    "Marxs.C52_moveelem_last_wins",
    "Marxs.C52_moveelem_reset",
    "Marxs.C52_moveelem_discards_changes"
   ],
   "note": "reset proved for containers without initial misalignment; false otherwise (C52_reset_false)"
  },
  {
   "property": "C53",
   "status": "proved",
   "theorems": [
    "Marxs.C53_results",
    "Marxs.C53_contains",
    "Marxs.C53_order_irrelevant",
    "Marxs.C53_permutation",
    "Marxs.C53_moveglobal_last_call"
   ],
   "note": "run_tolerances evaluates every parameter set on the unmodified input photons"
  },
  {
   "property": "C54",
   "status": "proved",
   "theorems": [
    "Marxs.C54_entries",
    "Marxs.C54_one_at_a_time",
    "Marxs.C54_domain"
   ],
   "note": "generate_6d_wigglelist varies one degree of freedom at a time"
  },
  {
   "property": "C55",
   "status": "proved",
   "theorems": [
    "Marxs.C55_rows",
    "Marxs.C55_reference",
    "Marxs.C55_wigglelist"
   ],
   "note": "select_1dof_changed picks exactly the runs where only this parameter changed"
  },
  {
   "property": "C56",
   "status": "proved",
   "theorems": [
    "Marxs.C56_subaperture"
   ],
   "note": "identify_photon_in_subaperture assigns sectors"
  },
  {
   "property": "C57",
   "status": "proved",
   "theorems": [
    "Marxs.C57_sound",
    "Marxs.C57_complete",
    "Marxs.C57_rejected"
   ],
   "note": "tablerows_to_2d puts every table entry at its coordinates"
  },
  {
   "property": "C58",
   "status": "proved",
   "theorems": [
    "Marxs.C58_support_bars",
    "Marxs.C58_no_facets",
    "Marxs.C58_mounting",
    "Marxs.C58_quality_factor",
    "Marxs.C58_quality_values",
    "Marxs.C58_dimensions",
    "Marxs.C58_l2_factor",
    "Marxs.C58_l2_rejected",
    "Marxs.C58_l2_values"
   ],
   "note": "CAT grating support structures only remove photons"
  },
  {
   "property": "C59",
   "status": "proved",
   "theorems": [
    "Marxs.C59_rigid",
    "Marxs.C59_injective",
    "Marxs.C59_area",
    "Marxs.C59_disjoint"
   ],
   "note": "Chandra chip to tiled detector coordinates is a rigid, invertible map"
  },
  {
   "property": "C60",
   "status": "proved",
   "theorems": [
    "Marxs.C60_channel",
    "Marxs.C60_no_module",
    "Marxs.C60_some_channel",
    "Marxs.C60_partition"
   ],
   "note": "Id ranges identify the Arcus channel of each photon"
  },
  {
   "property": "C61",
   "status": "proved",
   "theorems": [
    "Marxs.C61_valid",
    "Marxs.C61_inner_edges",
    "Marxs.C61_outer_edges",
    "Marxs.C61_neighbours",
    "Marxs.C61_closed",
    "Marxs.C61_no_other_edges",
    "Marxs.C61_two_triangles",
    "Marxs.C61_area",
    "Marxs.C61_no_hole"
   ],
   "note": "plane_with_hole triangulates the region between the two boundaries"
  },
  {
   "property": "C62",
   "status": "partial",
   "theorems": [
    "Marxs.C62_same_size_partial",
    "Marxs.C62_larger_second_false",
    "Marxs.C62_smaller_second_false",
    "Marxs.C62_combined_false",
    "Marxs.C62_errors",
    "Marxs.C62_circular_hole"
   ],
   "note": "proved for parts with equal number of points; false otherwise (C62_larger_second_false, C62_smaller_second_false)"
  },
  {
   "property": "C63",
   "status": "partial",
   "theorems": [
    "Marxs.C63_int",
    "Marxs.C63_float_partial",
    "Marxs.C63_float_number_partial",
    "Marxs.C63_mixing_false",
    "Marxs.C63_accepted_iff",
    "Marxs.C63_value_error"
   ],
   "note": "integers proved; floats mix components (C63_mixing_false)"
  },
  {
   "property": "C64",
   "status": "proved",
   "theorems": [
    "Marxs.C64_energy_table",
    "Marxs.C64_energy_table_rejected",
    "Marxs.C64_energy_distribution",
    "Marxs.C64_energy_other",
    "Marxs.C64_polarization"
   ],
   "note": "Source energies and polarization angles follow the given distribution"
  },
  {
   "property": "C65",
   "status": "proved",
   "theorems": [
    "Marxs.C65_identity",
    "Marxs.C65_method_sees_local_frame",
    "Marxs.C65_compose"
   ],
   "note": "Local coordinates are an exact change of frame"
  },
  {
   "property": "C66",
   "status": "proved",
   "theorems": [
    "Marxs.C66_rigid",
    "Marxs.C66_isometry",
    "Marxs.C66_displacement"
   ],
   "note": "Facet uncertainties are rigid motions"
  },
  {
   "property": "C67",
   "status": "proved",
   "theorems": [
    "Marxs.C67_accepted_is_invertible",
    "Marxs.C67_both_rejected",
    "Marxs.C67_zoom_rejected",
    "Marxs.C67_pos4d_used",
    "Marxs.C67_composed",
    "Marxs.C67_singular_rejected"
   ],
   "note": "Geometry placement: exactly one way, always invertible"
  },
  {
   "property": "C68",
   "status": "partial",
   "theorems": [
    "Marxs.C68_cone_partial",
    "Marxs.C68_parallel_z"
   ],
   "note": "all central directions not parallel to z; false there (C68_parallel_z)"
  },
  {
   "property": "C69",
   "status": "proved",
   "theorems": [
    "Marxs.C69_baffle",
    "Marxs.C69_baffle_runs",
    "Marxs.C69_zero_where"
   ],
   "note": "A baffle stops exactly the photons that miss its hole"
  },
  {
   "property": "C70",
   "status": "proved",
   "theorems": [
    "Marxs.C70_plane_bases",
    "Marxs.C70_cylinder_bases",
    "Marxs.C70_elliptical_not_orthogonal"
   ],
   "note": "Local coordinate bases on surfaces are orthonormal"
  },
  {
   "property": "C71",
   "status": "proved",
   "theorems": [
    "Marxs.C71_pointing_polarization"
   ],
   "note": "Polarization of photons from the sky is transverse and measured from North through East"
  },
  {
   "property": "C72",
   "status": "proved",
   "theorems": [
    "Marxs.C72_far_lab"
   ],
   "note": "A far lab source illuminates its aperture with rays from the source position"
  },
  {
   "property": "C73",
   "status": "proved",
   "theorems": [
    "Marxs.C73_resolving_power",
    "Marxs.C73_zero_order",
    "Marxs.C73_twenty_photons",
    "Marxs.C73_robust",
    "Marxs.C73_lost_photons",
    "Marxs.C73_detected_photons"
   ],
   "note": "Resolving power is computed order by order and the robust version reports the worst case"
  },
  {
   "property": "C74",
   "status": "partial",
   "theorems": [
    "Marxs.C74_fixed_length_partial",
    "Marxs.C74_single_group_false",
    "Marxs.C74_conversion_fails"
   ],
   "note": "proved if a row has two groups; false for single-group matrices (C74_single_group_false)"
  },
  {
   "property": "C75",
   "status": "partial",
   "theorems": [
    "Marxs.C75_tab_and_range_partial",
    "Marxs.C75_fixed_fraction_false"
   ],
   "note": "proved for classes that define osip_tab; false for FixedFractionOSIP (C75_fixed_fraction_false)"
  },
  {
   "property": "C76",
   "status": "proved",
   "theorems": [
    "Marxs.C76_pairs",
    "Marxs.C76_once",
    "Marxs.C76_contributes"
   ],
   "note": "apply_osip_all processes every order and its contaminants, and nothing else"
  },
  {
   "property": "C77",
   "status": "partial",
   "theorems": [
    "Marxs.C77_columns_partial",
    "Marxs.C77_uncovered_false",
    "Marxs.C77_overlap_false"
   ],
   "note": "columns proved; ring is neither filled nor free of overlap (C77_uncovered_false, C77_overlap_false)"
  },
  {
   "property": "C78",
   "status": "proved",
   "theorems": [
    "Marxs.C78_elements_on_torus",
    "Marxs.C78_all_or_nothing",
    "Marxs.C78_radiusangle",
    "Marxs.C78_ideal"
   ],
   "note": "Elements placed on a torus lie on the torus"
  },
  {
   "property": "C79",
   "status": "partial",
   "theorems": [
    "Marxs.C79_split_partial",
    "Marxs.C79_not_found",
    "Marxs.C79_subclass_false"
   ],
   "note": "proved for subclass_ok=False; false otherwise (C79_subclass_false)"
  },
  {
   "property": "C80",
   "status": "proved",
   "theorems": [
    "Marxs.C80_rows",
    "Marxs.C80_empty",
    "Marxs.C80_reset"
   ],
   "note": "run_tolerances_for_energies covers the full grid and resets at the end"
  },
  {
   "property": "C81",
   "status": "proved",
   "theorems": [
    "Marxs.C81_no_new_attribute",
    "Marxs.C81_error_iff",
    "Marxs.C81_values",
    "Marxs.C81_half_done"
   ],
   "note": "varyattribute changes existing attributes only"
  },
  {
   "property": "C82",
   "status": "proved",
   "theorems": [
    "Marxs.C82_own",
    "Marxs.C82_geometry",
    "Marxs.C82_missing"
   ],
   "note": "Display settings are looked up in the element, then in its geometry"
  },
  {
   "property": "C83",
   "status": "proved",
   "theorems": [
    "Marxs.C83_first_known",
    "Marxs.C83_warning_iff",
    "Marxs.C83_settings_kept",
    "Marxs.C83_again"
   ],
   "note": "The first shape known to the plotting package is drawn, and plotting has no lasting effect"
  },
  {
   "property": "C84",
   "status": "proved",
   "theorems": [
    "Marxs.C84_nested",
    "Marxs.C84_scene",
    "Marxs.C84_error"
   ],
   "note": "Plotting a container plots every element in it once"
  },
  {
   "property": "C85",
   "status": "proved",
   "theorems": [
    "Marxs.C85_faces",
    "Marxs.C85_each_once",
    "Marxs.C85_valid",
    "Marxs.C85_neighbours",
    "Marxs.C85_neighbour_rows"
   ],
   "note": "Faces of a parametric surface are the cells of its grid of points"
  },
  {
   "property": "C86",
   "status": "partial",
   "theorems": [
    "Marxs.C86_connections",
    "Marxs.C86_same_ray",
    "Marxs.C86_own_value_partial",
    "Marxs.C86_count",
    "Marxs.C86_no_scalar",
    "Marxs.C86_point_values_false",
    "Marxs.C86_point_values_error",
    "Marxs.C86_wrong_shape"
   ],
   "note": "proved for one value per ray; values per point are mixed up or fail (C86_point_values_false, C86_point_values_error)"
  },
  {
   "property": "C87",
   "status": "partial",
   "theorems": [
    "Marxs.C87_own_radius_partial",
    "Marxs.C87_other_geometry_false"
   ],
   "note": "planes with holes proved; other geometries inherit the radius (C87_other_geometry_false)"
  },
  {
   "property": "C88",
   "status": "proved",
   "theorems": [
    "Marxs.C88_plus_x",
    "Marxs.C88_plus_y",
    "Marxs.C88_plus_z",
    "Marxs.C88_minus_x",
    "Marxs.C88_minus_y",
    "Marxs.C88_minus_z",
    "Marxs.C88_other_settings",
    "Marxs.C88_placed",
    "Marxs.C88_faces",
    "Marxs.C88_closed",
    "Marxs.C88_triangles"
   ],
   "note": "Boxes are closed and half boxes show the documented half"
  },
  {
   "property": "C89",
   "status": "partial",
   "theorems": [
    "Marxs.C89_full_circle",
    "Marxs.C89_wedge",
    "Marxs.C89_strip_partial",
    "Marxs.C89_strip_false",
    "Marxs.C89_strip_valid",
    "Marxs.C89_frame"
   ],
   "note": "box proved; surfaces proved for two columns, false for more (C89_strip_false)"
  },
  {
   "property": "C90",
   "status": "proved",
   "theorems": [
    "Marxs.C90_scene_unchanged",
    "Marxs.C90_local_sources",
    "Marxs.C90_ok_iff",
    "Marxs.C90_unknown_implementation",
    "Marxs.C90_switch"
   ],
   "note": "Writing an archive leaves the scene unchanged whatever fails"
  },
  {
   "property": "C91",
   "status": "proved",
   "theorems": [
    "Marxs.C91_boom",
    "Marxs.C91_two_booms"
   ],
   "note": "Booms absorb exactly the photons that hit a rod"
  },
  {
   "property": "C92",
   "status": "proved",
   "theorems": [
    "Marxs.C92_layer",
    "Marxs.C92_fraction",
    "Marxs.C92_transmission",
    "Marxs.C92_probability"
   ],
   "note": "L1 support layer: bar or grating"
  },
  {
   "property": "C93",
   "status": "partial",
   "theorems": [
    "Marxs.C93_reads",
    "Marxs.C93_round_trip_partial",
    "Marxs.C93_stale_orders_false"
   ],
   "note": "proved for headers without a longer list; stale orders otherwise (C93_stale_orders_false)"
  },
  {
   "property": "C94",
   "status": "proved",
   "theorems": [
    "Marxs.C94_direction",
    "Marxs.C94_on_axis",
    "Marxs.C94_angles"
   ],
   "note": "A fixed pointing maps the sky rigidly to photon directions"
  },
  {
   "property": "C95",
   "status": "partial",
   "theorems": [
    "Marxs.C95_pointing",
    "Marxs.C95_distance",
    "Marxs.C95_bounds",
    "Marxs.C95_direction",
    "Marxs.C95_no_dither_partial",
    "Marxs.C95_reference_false",
    "Marxs.C95_succeeds",
    "Marxs.C95_roll_dither_error",
    "Marxs.C95_roll_dither_false",
    "Marxs.C95_pattern_false"
   ],
   "note": "proved but for the reference transform, dither in roll and orientation of the pattern, which fail (C95_reference_false, C95_roll_dither_false, C95_pattern_false)"
  },
  {
   "property": "C96",
   "status": "partial",
   "theorems": [
    "Marxs.C96_corners",
    "Marxs.C96_normal",
    "Marxs.C96_table",
    "Marxs.C96_constructor_partial",
    "Marxs.C96_constructor_error",
    "Marxs.C96_chip_coordinates",
    "Marxs.C96_chips",
    "Marxs.C96_chips_error"
   ],
   "note": "placement proved; the constructor rejects the documented offsets (C96_constructor_error)"
  },
  {
   "property": "C97",
   "status": "partial",
   "theorems": [
    "Marxs.C97_det",
    "Marxs.C97_sky",
    "Marxs.C97_sky_partial",
    "Marxs.C97_sky_false"
   ],
   "note": "sky coordinates for roll 0 and 180 degrees; depend on the roll otherwise (C97_sky_false)"
  },
  {
   "property": "C98",
   "status": "partial",
   "theorems": [
    "Marxs.C98_callable",
    "Marxs.C98_coordinates_partial",
    "Marxs.C98_towards_false",
    "Marxs.C98_parallel_refused",
    "Marxs.C98_bad_spec",
    "Marxs.C98_at_point_nan",
    "Marxs.C98_too_few"
   ],
   "note": "proved; but points given as normal_spec turn the normals away, not towards (C98_towards_false)"
  },
  {
   "property": "C99",
   "status": "partial",
   "theorems": [
    "Marxs.C99_elements_partial",
    "Marxs.C99_top_false"
   ],
   "note": "proved away from top and bottom of the tube, r<R, torus moved and rotated; false at the top (C99_top_false)"
  },
  {
   "property": "C100",
   "status": "proved",
   "theorems": [
    "Marxs.C100_surface",
    "Marxs.C100_circle",
    "Marxs.C100_radius",
    "Marxs.C100_hit"
   ],
   "note": "The detector made from a Rowland torus stands on the Rowland circle"
  },
  {
   "property": "C101",
   "status": "partial",
   "theorems": [
    "Marxs.C101_projection",
    "Marxs.C101_along_normal",
    "Marxs.C101_table",
    "Marxs.C101_position_partial",
    "Marxs.C101_moved_false",
    "Marxs.C101_plane_renamed"
   ],
   "note": "positions proved for containers at the origin; the position of the container is ignored (C101_moved_false)"
  },
  {
   "property": "C102",
   "status": "proved",
   "theorems": [
    "Marxs.C102_table",
    "Marxs.C102_errors",
    "Marxs.C102_simple"
   ],
   "note": "Photon lists of sources are complete and consistent"
  },
  {
   "property": "C103",
   "status": "partial",
   "theorems": [
    "Marxs.C103_point",
    "Marxs.C103_radial",
    "Marxs.C103_gauss",
    "Marxs.C103_disk_partial",
    "Marxs.C103_all_sky_false"
   ],
   "note": "proved for all sources; radii of disks only for the outer radius up to 90 degrees (C103_all_sky_false)"
  },
  {
   "property": "C104",
   "status": "partial",
   "theorems": [
    "Marxs.C104_letter_partial",
    "Marxs.C104_size_false",
    "Marxs.C104_frame_false",
    "Marxs.C104_pole_error"
   ],
   "note": "proved for ICRS positions away from the pole, with size in right ascension; size, frame and pole cases fail (C104_size_false, C104_frame_false, C104_pole_error)"
  },
  {
   "property": "C105",
   "status": "partial",
   "theorems": [
    "Marxs.C105_directions",
    "Marxs.C105_polarization",
    "Marxs.C105_twice",
    "Marxs.C105_missing",
    "Marxs.C105_no_jitter",
    "Marxs.C105_jitter_partial",
    "Marxs.C105_single_position",
    "Marxs.C105_jitter_together",
    "Marxs.C105_jitter_reference_false"
   ],
   "note": "proved; jitter only for the default reference transform, wrong otherwise (C105_jitter_reference_false)"
  },
  {
   "property": "C106",
   "status": "proved",
   "theorems": [
    "Marxs.C106_monoenergetic"
   ],
   "note": "monoenergetic_astrosimulation delivers the photons it promises"
  },
  {
   "property": "C107",
   "status": "partial",
   "theorems": [
    "Marxs.C107_flat",
    "Marxs.C107_no_direction",
    "Marxs.C107_multi_partial",
    "Marxs.C107_multi_steps_false"
   ],
   "note": "proved for groups without pre- and postprocess steps; those act on the wrong photons (C107_multi_steps_false)"
  },
  {
   "property": "C108",
   "status": "partial",
   "theorems": [
    "Marxs.C108_filter",
    "Marxs.C108_filter_range",
    "Marxs.C108_global",
    "Marxs.C108_ccd_partial",
    "Marxs.C108_ccd_miss_false"
   ],
   "note": "filters proved; detector energies only if all photons hit (C108_ccd_miss_false)"
  },
  {
   "property": "C109",
   "status": "partial",
   "theorems": [
    "Marxs.C109_photons",
    "Marxs.C109_probability_partial",
    "Marxs.C109_probability_false",
    "Marxs.C109_polarization_partial",
    "Marxs.C109_refused",
    "Marxs.C109_lost_false",
    "Marxs.C109_orientation_false"
   ],
   "note": "rows, order and positions proved; probability for 0 and 1, polarization for the default position and orientation only, see the three _false theorems"
  },
  {
   "property": "C110",
   "status": "proved",
   "theorems": [
    "Marxs.C110_width",
    "Marxs.C110_defined",
    "Marxs.C110_focus",
    "Marxs.C110_behind"
   ],
   "note": "The best detector position is where the photons come together"
  },
  {
   "property": "C111",
   "status": "partial",
   "theorems": [
    "Marxs.C111_bend_partial",
    "Marxs.C111_width_false",
    "Marxs.C111_single_false"
   ],
   "note": "stacks proved; single gratings fail, arc is shorter than the grating"
  },
  {
   "property": "C112",
   "status": "partial",
   "theorems": [
    "Marxs.C112_rays",
    "Marxs.C112_correction_partial",
    "Marxs.C112_energy_false",
    "Marxs.C112_bent_false",
    "Marxs.C112_chirp",
    "Marxs.C112_grid_false"
   ],
   "note": "proved for photons of 1 keV; the energy given is ignored, the finder for bent gratings and other grids fail"
  },
  {
   "property": "C113",
   "status": "partial",
   "theorems": [
    "Marxs.C113_each",
    "Marxs.C113_zero",
    "Marxs.C113_independent",
    "Marxs.C113_side_effect",
    "Marxs.C113_units",
    "Marxs.C113_lost_partial",
    "Marxs.C113_lost_false"
   ],
   "note": "lost photons do matter for detectors given by the user (C113_lost_false)"
  },
  {
   "property": "C114",
   "status": "proved",
   "theorems": [
    "Marxs.C114_period",
    "Marxs.C114_order_selector",
    "Marxs.C114_one",
    "Marxs.C114_no_period",
    "Marxs.C114_forgotten"
   ],
   "note": "Tolerancing functions treat lists of gratings one by one"
  },
  {
   "property": "C115",
   "status": "partial",
   "theorems": [
    "Marxs.C115_tilt",
    "Marxs.C115_succeeds",
    "Marxs.C115_wrong_elements",
    "Marxs.C115_compensated_partial",
    "Marxs.C115_other_side_false",
    "Marxs.C115_default_false",
    "Marxs.C115_selectors"
   ],
   "note": "compensation proved for bars along y and photons from the right side; the other cases are wrong (two _false theorems)"
  },
  {
   "property": "C116",
   "status": "proved",
   "theorems": [
    "Marxs.C116_on_ccd",
    "Marxs.C116_unknown_axis",
    "Marxs.C116_area",
    "Marxs.C116_bins",
    "Marxs.C116_channels",
    "Marxs.C116_additive",
    "Marxs.C116_nonneg",
    "Marxs.C116_evanescent",
    "Marxs.C116_repeated_false"
   ],
   "note": "Effective area of Arcus"
  },
  {
   "property": "C117",
   "status": "proved",
   "theorems": [
    "Marxs.C117_orders",
    "Marxs.C117_ccd_orders",
    "Marxs.C117_kinds",
    "Marxs.C117_missing",
    "Marxs.C117_arcus",
    "Marxs.C117_channel_keyword",
    "Marxs.C117_run",
    "Marxs.C117_inputs_kept",
    "Marxs.C117_osip_name_false"
   ],
   "note": "names from integer orders do not find the files of apply_osip for orders >= 0 (C117_osip_name_false)"
  },
  {
   "property": "C118",
   "status": "partial",
   "theorems": [
    "Marxs.C118_arf_write",
    "Marxs.C118_phai_false",
    "Marxs.C118_rmf_init",
    "Marxs.C118_detchans_partial",
    "Marxs.C118_detchans_false",
    "Marxs.C118_rmf_file",
    "Marxs.C118_roundtrip"
   ],
   "note": "PHAI cannot be written (C118_phai_false); DETCHANS wrong for non-square matrices (C118_detchans_false)"
  },
  {
   "property": "C119",
   "status": "partial",
   "theorems": [
    "Marxs.C119_model",
    "Marxs.C119_defined",
    "Marxs.C119_row_sum",
    "Marxs.C119_same_model",
    "Marxs.C119_convert_back_false",
    "Marxs.C119_convert_back_partial",
    "Marxs.C119_energy_false",
    "Marxs.C119_gauss",
    "Marxs.C119_range"
   ],
   "note": "energy tables fail (C119_energy_false); conversion back works for the components only (C119_convert_back_partial)"
  },
  {
   "property": "C120",
   "status": "proved",
   "theorems": [
    "Marxs.C120_photon",
    "Marxs.C120_init"
   ],
   "note": "Complete CAT gratings"
  },
  {
   "property": "C121",
   "status": "partial",
   "theorems": [
    "Marxs.C121_nonparallel_partial",
    "Marxs.C121_nonparallel_false"
   ],
   "note": "holds for groove angle 0; false for others (C121_nonparallel_false)"
  },
  {
   "property": "C122",
   "status": "partial",
   "theorems": [
    "Marxs.C122_three_partial",
    "Marxs.C122_three_fit",
    "Marxs.C122_four_partial",
    "Marxs.C122_unknown",
    "Marxs.C122_named",
    "Marxs.C122_float_counts",
    "Marxs.C122_nan",
    "Marxs.C122_stale_four_false",
    "Marxs.C122_stale_three_false"
   ],
   "note": "longerons and battens as stated; diagonals only if the lengths fit (C122_three_fit, C122_four_partial); they are not updated with the other lengths (C122_stale_four_false, C122_stale_three_false)"
  },
  {
   "property": "C123",
   "status": "partial",
   "theorems": [
    "Marxs.C123_rod",
    "Marxs.C123_near_partial",
    "Marxs.C123_false",
    "Marxs.C123_boom",
    "Marxs.C123_refused",
    "Marxs.C123_rods",
    "Marxs.C123_placed"
   ],
   "note": "what is absorbed is characterised exactly (C123_rod, C123_boom); absorbed photons come within d/sqrt 2 of the axis (C123_near_partial), but not all photons that hit a rod are absorbed (C123_false)"
  },
  {
   "property": "C124",
   "status": "proved",
   "theorems": [
    "Marxs.C124_gratings",
    "Marxs.C124_shifted",
    "Marxs.C124_refused",
    "Marxs.C124_numbers_false"
   ],
   "note": "all parts proved; C124_numbers_false shows that the numbers are not in general those of the table"
  },
  {
   "property": "C125",
   "status": "proved",
   "theorems": [
    "Marxs.C125_layout",
    "Marxs.C125_order",
    "Marxs.C125_disjoint",
    "Marxs.C125_count",
    "Marxs.C125_detx_false",
    "Marxs.C125_groups_false"
   ],
   "note": "all parts proved; C125_detx_false and C125_groups_false show two comments that the code does not follow"
  },
  {
   "property": "C126",
   "status": "proved",
   "theorems": [
    "Marxs.C126_placement",
    "Marxs.C126_focus",
    "Marxs.C126_refused",
    "Marxs.C126_lens"
   ],
   "note": "all parts proved"
  },
  {
   "property": "C127",
   "status": "partial",
   "theorems": [
    "Marxs.C127_rectangles",
    "Marxs.C127_covers_partial",
    "Marxs.C127_covers_false",
    "Marxs.C127_refused",
    "Marxs.C127_empty"
   ],
   "note": "rectangles, symmetric tables and refusals proved; the full statement is false of the code (C127_covers_false), C127_covers_partial assumes a symmetric table and SPOs within the margins"
  },
  {
   "property": "C128",
   "status": "proved",
   "theorems": [
    "Marxs.C128_placement",
    "Marxs.C128_grooves",
    "Marxs.C128_default",
    "Marxs.C128_dispersion",
    "Marxs.C128_meg_heg",
    "Marxs.C128_refused"
   ],
   "note": "all parts proved; the table is an argument, the frames in it have to be exactly orthonormal and right-handed"
  },
  {
   "property": "C129",
   "status": "partial",
   "theorems": [
    "Marxs.C129_keeps",
    "Marxs.C129_complete_partial",
    "Marxs.C129_times",
    "Marxs.C129_needs",
    "Marxs.C129_observation_false",
    "Marxs.C129_default_false",
    "Marxs.C129_hduclass_false",
    "Marxs.C129_write_evt_false"
   ],
   "note": "partial: the keywords about the observation are missing in the code (negation proved), all others proved; `C129_*_false` are the negations of what is documented"
  },
  {
   "property": "C130",
   "status": "partial",
   "theorems": [
    "Marxs.C130_order_partial",
    "Marxs.C130_false",
    "Marxs.C130_repeatable_false"
   ],
   "note": "partial: the order is proved, but the function never returns the sorted table (negation proved)"
  },
  {
   "property": "C131",
   "status": "proved",
   "theorems": [
    "Marxs.C131_history",
    "Marxs.C131_independent",
    "Marxs.C131_lynx",
    "Marxs.C131_athena",
    "Marxs.C131_arcus",
    "Marxs.C131_shared"
   ],
   "note": "`C131_shared` shows that the dictionary is really shared: values of another configuration are left in it"
  },
  {
   "property": "C132",
   "status": "proved",
   "theorems": [
    "Marxs.C132_arcus",
    "Marxs.C132_lynx",
    "Marxs.C132_again",
    "Marxs.C132_row",
    "Marxs.C132_global",
    "Marxs.C132_individual",
    "Marxs.C132_untouched",
    "Marxs.C132_order",
    "Marxs.C132_own",
    "Marxs.C132_accepted"
   ],
   "note": "the kind `individual_with_tilt` of Arcus is not part of this model"
  },
  {
   "property": "C133",
   "status": "proved",
   "theorems": [
    "Marxs.C133_bilinear",
    "Marxs.C133_grid",
    "Marxs.C133_edge",
    "Marxs.C133_probability",
    "Marxs.C133_order",
    "Marxs.C133_accepted",
    "Marxs.C133_rejected"
   ],
   "note": "Degree 1 (the default) only: splines of higher degree can overshoot. Assumption on scipy: `RectBivariateSpline(kx=1, ky=1).ev` is bilinear in each cell and moves arguments outside to the edge."
  },
  {
   "property": "C134",
   "status": "partial",
   "theorems": [
    "Marxs.C134_efficiency_partial",
    "Marxs.C134_bounds",
    "Marxs.C134_area",
    "Marxs.C134_serial_too_large",
    "Marxs.C134_serial_zero",
    "Marxs.C134_position_false",
    "Marxs.C134_outside",
    "Marxs.C134_telescope",
    "Marxs.C134_telescope_false"
   ],
   "note": "`C134_efficiency_partial`: right for shells listed as 1, 2, 3, ... and photons whose column `shell` has the serial number; in the telescope it has not (`C134_telescope_false`)."
  },
  {
   "property": "C135",
   "status": "partial",
   "theorems": [
    "Marxs.C135_detector",
    "Marxs.C135_zero_order",
    "Marxs.C135_unknown",
    "Marxs.C135_angle",
    "Marxs.C135_wavelength",
    "Marxs.C135_zero_event_partial",
    "Marxs.C135_cross_zero_false",
    "Marxs.C135_cross_too_large",
    "Marxs.C135_other_conf_false"
   ],
   "note": "`C135_zero_event_partial`: tg_r and tg_mlam are 0 for zeroth order events; tg_d is not (`C135_cross_zero_false`). Dispersion angle, zeroth order position and wavelength are proved in full."
  },
  {
   "property": "C136",
   "status": "partial",
   "theorems": [
    "Marxs.C136_radius_partial",
    "Marxs.C136_cone",
    "Marxs.C136_order",
    "Marxs.C136_refused",
    "Marxs.C136_past_false"
   ],
   "note": "`C136_radius_partial`: photons that reach the plane; photons that have passed it give NaN or values from another detector (`C136_past_false`)."
  },
  {
   "property": "C137",
   "status": "partial",
   "theorems": [
    "Marxs.C137_opening_partial",
    "Marxs.C137_baffle_false"
   ],
   "note": "`C137_opening_partial`: rectangular openings of apertures; the drawing of baffles is perpendicular to the plane of the baffle (`C137_baffle_false`)."
  },
  {
   "property": "C138",
   "status": "partial",
   "theorems": [
    "Marxs.C138_box",
    "Marxs.C138_mesh_partial",
    "Marxs.C138_mesh_false",
    "Marxs.C138_rays_partial",
    "Marxs.C138_rays_refused",
    "Marxs.C138_no_rays_false",
    "Marxs.C138_material",
    "Marxs.C138_scene_partial",
    "Marxs.C138_write_photons_false",
    "Marxs.C138_container_false",
    "Marxs.C138_torus_partial",
    "Marxs.C138_torus_axis_false",
    "Marxs.C138_torus_place_false",
    "Marxs.C138_torus_range_false",
    "Marxs.C138_torus_cells"
   ],
   "note": "Partial: meshes with up to 65536 points, at least one ray, no header from photons; a torus is on its surface only after y and z are exchanged (`C138_torus_axis_false`, `C138_torus_place_false`, `C138_torus_range_false`, `C138_container_false`, `C138_write_photons_false`, `C138_no_rays_false`, `C138_mesh_false`)."
  },
  {
   "property": "C139",
   "status": "proved",
   "theorems": [
    "Marxs.C139_table",
    "Marxs.C139_probability",
    "Marxs.C139_unpolarized"
   ],
   "note": "Reflectivity of multi-layer mirrors follows the files"
  },
  {
   "property": "C140",
   "status": "partial",
   "theorems": [
    "Marxs.C140_bins",
    "Marxs.C140_total_partial",
    "Marxs.C140_range_false",
    "Marxs.C140_lost_false",
    "Marxs.C140_table",
    "Marxs.C140_single_false",
    "Marxs.C140_decreasing_false",
    "Marxs.C140_refused"
   ],
   "note": "`C140_total_partial`: the range that is really used, which is one bin short on the upper side (`C140_range_false`)."
  },
  {
   "property": "C141",
   "status": "partial",
   "theorems": [
    "Marxs.C141_same_ray",
    "Marxs.C141_recorded",
    "Marxs.C141_line",
    "Marxs.C141_reset",
    "Marxs.C141_runs",
    "Marxs.C141_axis",
    "Marxs.C141_lynx",
    "Marxs.C141_lynx_microcal",
    "Marxs.C141_athena",
    "Marxs.C141_athena_zero",
    "Marxs.C141_arcus_partial",
    "Marxs.C141_arcus_false",
    "Marxs.C141_arcus_camera_false",
    "Marxs.C141_pixels_false",
    "Marxs.C141_recorded_in_array",
    "Marxs.C141_arcus_ccd",
    "Marxs.C141_projected",
    "Marxs.C141_columns",
    "Marxs.C141_pixel_flat",
    "Marxs.C141_pixel_circular"
   ],
   "note": "`C141_arcus_partial`: for Arcus only photons on whose ray there is no CCD below the focal plane (`C141_arcus_false` for the others)."
  },
  {
   "property": "C142",
   "status": "proved",
   "theorems": [
    "Marxs.C142_response",
    "Marxs.C142_sum",
    "Marxs.C142_refused",
    "Marxs.C142_symmetric",
    "Marxs.C142_replace_false",
    "Marxs.C142_filters",
    "Marxs.C142_simulation",
    "Marxs.C142_simulation_range"
   ],
   "note": "Response of the zero order of Arcus"
  },
  {
   "property": "C143",
   "status": "partial",
   "theorems": [
    "Marxs.C143_parts_lynx",
    "Marxs.C143_parts_axis",
    "Marxs.C143_parts_athena",
    "Marxs.C143_arcus_aperture",
    "Marxs.C143_order_lynx",
    "Marxs.C143_order_axis",
    "Marxs.C143_order_athena",
    "Marxs.C143_axis_chirp",
    "Marxs.C143_lynx_chirp_partial",
    "Marxs.C143_athena_chirp_partial",
    "Marxs.C143_lynx_chirp_none",
    "Marxs.C143_athena_chirp_none",
    "Marxs.C143_axis_conf_chirp",
    "Marxs.C143_lynx_chirp_false",
    "Marxs.C143_athena_chirp_false",
    "Marxs.C143_circle_partial",
    "Marxs.C143_circle_false",
    "Marxs.C143_lynx_misaligned",
    "Marxs.C143_needs_budget",
    "Marxs.C143_axis_false",
    "Marxs.C143_lynx_variants_false",
    "Marxs.C143_axis_chirp_lost",
    "Marxs.C143_for_plot",
    "Marxs.C143_arcus_accepted",
    "Marxs.C143_order_arcus",
    "Marxs.C143_arcus_parts",
    "Marxs.C143_arcus_misaligned",
    "Marxs.C143_sixte_camera"
   ],
   "note": "Light order and parts hold for all missions; chirp holds for AXIS only, and misaligned telescopes can not be made for AXIS; negations proved."
  },
  {
   "property": "C144",
   "status": "partial",
   "theorems": [
    "Marxs.C144_surface",
    "Marxs.C144_torus",
    "Marxs.C144_torus_coordinates",
    "Marxs.C144_torus_covered",
    "Marxs.C144_cylinder_partial",
    "Marxs.C144_cylinder_covered_partial",
    "Marxs.C144_cylinder_given",
    "Marxs.C144_wrapped_false",
    "Marxs.C144_equal_limits_false",
    "Marxs.C144_scene",
    "Marxs.C144_scene_false",
    "Marxs.C144_triangles",
    "Marxs.C144_mayavi",
    "Marxs.C144_tube",
    "Marxs.C144_tube_sides_false",
    "Marxs.C144_box",
    "Marxs.C144_triangle_set"
   ],
   "note": "Holds for limits in order; negations proved for limits that wrap around, for scenes that are not returned and for the documented key of tubes. Rendering by X3D, the browser or Mayavi is not modelled."
  },
  {
   "property": "C145",
   "status": "proved",
   "theorems": [
    "Marxs.C145_alone",
    "Marxs.C145_company",
    "Marxs.C145_columns_false",
    "Marxs.C145_mounting_false",
    "Marxs.C145_detector"
   ],
   "note": "Proved for steps that compute photon by photon; random numbers belong to the photon. The set of columns and spomounting depend on the other photons: negations proved."
  },
  {
   "property": "C146",
   "status": "proved",
   "theorems": [
    "Marxs.C146_rowland_focus",
    "Marxs.C146_missions"
   ],
   "note": "Exact for photons that hit the centre of a grating; gratings are flat, so for other points there is an aberration which is not bounded here. For the missions the gratings off the plane z = 0 are not covered by C146_missions (parallel_spec [0, 1, 0, 0] is not in their meridian plane when the torus is tilted)."
  },
  {
   "property": "C147",
   "status": "proved",
   "theorems": [
    "Marxs.C147_image",
    "Marxs.C147_on_axis",
    "Marxs.C147_spot"
   ],
   "note": "PerfectLens focuses on a sphere around the center of the lens, not on the focal plane, therefore the blur; its docstring (\"focusses all rays exactly\") holds on the axis."
  },
  {
   "property": "C148",
   "status": "partial",
   "theorems": [
    "Marxs.C148_panels_partial",
    "Marxs.C148_labels",
    "Marxs.C148_six_false",
    "Marxs.C148_background_false",
    "Marxs.C148_background"
   ],
   "note": "Partial because the code violates the rest: lists with more than six parameters fail, and the background color of the caller is replaced for file names with global/individual; both negations are proved."
  },
  {
   "property": "C149",
   "status": "proved",
   "theorems": [
    "Marxs.C149_style",
    "Marxs.C149_distinct",
    "Marxs.C149_above"
   ],
   "note": "Colors tell diffraction orders apart"
  },
  {
   "property": "C150",
   "status": "proved",
   "theorems": [
    "Marxs.C150_area",
    "Marxs.C150_start",
    "Marxs.C150_uniform",
    "Marxs.C150_multi",
    "Marxs.C150_effective_area"
   ],
   "note": "Random numbers are modelled as independent and uniform on [0, 1) (Lebesgue measure); the detection probability is any bounded measurable function."
  },
  {
   "property": "C151",
   "status": "partial",
   "theorems": [
    "Marxs.C151_cone_size",
    "Marxs.C151_cone_partial",
    "Marxs.C151_disk",
    "Marxs.C151_spherical_false"
   ],
   "note": "Partial because the code violates the rest: cones around the z axis give NaN (C68_parallel_z), and SphericalDiskSource is not uniform on the sphere (C151_spherical_false)."
  },
  {
   "property": "C152",
   "status": "proved",
   "theorems": [
    "Marxs.C152_order_selector",
    "Marxs.C152_interpolate_table",
    "Marxs.C152_efficiency_file",
    "Marxs.C152_density",
    "Marxs.C152_grating_area"
   ],
   "note": "Random numbers are modelled as independent and uniform on [0, 1) (Lebesgue measure)."
  },
  {
   "property": "C153",
   "status": "partial",
   "theorems": [
    "Marxs.C153_arrivals",
    "Marxs.C153_returned_partial",
    "Marxs.C153_hang_bound",
    "Marxs.C153_poisson_false",
    "Marxs.C153_one_photon_false"
   ],
   "note": "The arrival times are proved to be a Poisson process (C153_arrivals). What the function returns is only bounded by it (C153_returned_partial), because the code does not return for a part of the random numbers: C153_poisson_false, with a lower bound in C153_hang_bound."
  },
  {
   "property": "C154",
   "status": "proved",
   "theorems": [
    "Marxs.C154_gauss_sky",
    "Marxs.C154_scatter_angle",
    "Marxs.C154_scatter_symmetric",
    "Marxs.C154_jitter_angle",
    "Marxs.C154_jitter_symmetric",
    "Marxs.C154_gauss_profile"
   ],
   "note": "JitterPointing: optical axis along x as in C105_jitter_partial. GaussSource: radius in the plane of the offsets, which C103_gauss places on the sky (fromOffset), and bounds from both sides for the angle on the sky."
  },
  {
   "property": "C155",
   "status": "proved",
   "theorems": [
    "Marxs.C155_uniform",
    "Marxs.C155_modulation",
    "Marxs.C155_reflected",
    "Marxs.C155_half",
    "Marxs.C155_malus",
    "Marxs.C155_two_mirrors",
    "Marxs.C155_average"
   ],
   "note": "Normal incidence is left out: there the plane of incidence is not defined and the code returns NaN (C23)."
  },
  {
   "property": "C156",
   "status": "proved",
   "theorems": [
    "Marxs.C156_single",
    "Marxs.C156_effective_area"
   ],
   "note": "The shuffle is an arbitrary fixed permutation, so the bound holds for a random shuffle independent of the other numbers too."
  },
  {
   "property": "C157",
   "status": "proved",
   "theorems": [
    "Marxs.C157_plane",
    "Marxs.C157_cylinder",
    "Marxs.C157_transport",
    "Marxs.C157_lens",
    "Marxs.C157_thin_lens",
    "Marxs.C157_scatter",
    "Marxs.C157_mirror",
    "Marxs.C157_grating",
    "Marxs.C157_grating_polarization",
    "Marxs.C157_aperture",
    "Marxs.C157_element",
    "Marxs.C157_well_formed",
    "Marxs.C157_sequence"
   ],
   "note": "RandomGaussianScatter, polarization_vectors and JitterPointing choose their reference direction from fixed axes, so they are not covered: for them only the distribution is independent of the coordinates (C154)."
  },
  {
   "property": "C158",
   "status": "proved",
   "theorems": [
    "Marxs.C158_element",
    "Marxs.C158_sequence",
    "Marxs.C158_weights"
   ],
   "note": "Photons stay physical through a whole instrument"
  },
  {
   "property": "C159",
   "status": "proved",
   "theorems": [
    "Marxs.C159_plane",
    "Marxs.C159_cylinder",
    "Marxs.C159_lens",
    "Marxs.C159_thin_lens",
    "Marxs.C159_scatter",
    "Marxs.C159_mirror",
    "Marxs.C159_grating",
    "Marxs.C159_element",
    "Marxs.C159_size"
   ],
   "note": "An instrument of a different size shows the same picture, enlarged"
  },
  {
   "property": "C160",
   "status": "proved",
   "theorems": [
    "Marxs.C160_length",
    "Marxs.C160_propagator"
   ],
   "note": "The length of the direction vector of a photon does not matter"
  },
  {
   "property": "C161",
   "status": "partial",
   "theorems": [
    "Marxs.C161_band_partial",
    "Marxs.C161_band_false",
    "Marxs.C161_bands_apart",
    "Marxs.C161_mixture_partial",
    "Marxs.C161_files",
    "Marxs.C161_mixture_false",
    "Marxs.C161_summary_false",
    "Marxs.C161_summary",
    "Marxs.C161_sum_partial",
    "Marxs.C161_sum_order",
    "Marxs.C161_sum_false"
   ],
   "note": "bands for windows of fixed width and of fractional distance; mixture for offsets on the same side; sum with constant extension outside the range of a file. The rest of the statement is false for this code: C161_band_false, C161_mixture_false, C161_summary_false, C161_sum_false"
  },
  {
   "property": "C162",
   "status": "partial",
   "theorems": [
    "Marxs.C162_refused_partial",
    "Marxs.C162_used_partial",
    "Marxs.C162_required",
    "Marxs.C162_accepted",
    "Marxs.C162_misspelled",
    "Marxs.C162_one_place",
    "Marxs.C162_ignored_false",
    "Marxs.C162_torus_place_false"
   ],
   "note": "full statement except for the keywords that are accepted and ignored (C162_ignored_false), for the place of grids on a torus (C162_torus_place_false), and for grids on a torus with keyword `geometry`"
  },
  {
   "property": "C163",
   "status": "proved",
   "theorems": [
    "Marxs.C163_element",
    "Marxs.C163_list",
    "Marxs.C163_independent",
    "Marxs.C163_runs",
    "Marxs.C163_physical",
    "Marxs.C163_moved"
   ],
   "note": "full statement for the elements in Model/ListChain"
  },
  {
   "property": "C164",
   "status": "partial",
   "theorems": [
    "Marxs.C164_lost_photon_false",
    "Marxs.C164_lost_photon_partial",
    "Marxs.C164_stays_lost"
   ],
   "note": "proved for instruments without CircularDetector; refuted with one (C164_lost_photon_false): one evanescent photon raises ValueError for the whole list"
  },
  {
   "property": "C165",
   "status": "partial",
   "theorems": [
    "Marxs.C165_straight",
    "Marxs.C165_turns",
    "Marxs.C165_path",
    "Marxs.C165_kept",
    "Marxs.C165_drawn",
    "Marxs.C165_watching",
    "Marxs.C165_thinned_partial",
    "Marxs.C165_weights",
    "Marxs.C165_atol_false"
   ],
   "note": "full statement, but for the tolerance, which is larger than atol (C165_atol_false)"
  },
  {
   "property": "C166",
   "status": "proved",
   "theorems": [
    "Marxs.C166_one_element",
    "Marxs.C166_order",
    "Marxs.C166_behind_false"
   ],
   "note": "full statement for flat elements in one plane; C166_behind_false shows that the condition is needed"
  },
  {
   "property": "C167",
   "status": "proved",
   "theorems": [
    "Marxs.C167_mirror_image",
    "Marxs.C167_sign",
    "Marxs.C167_mirror_image_false"
   ],
   "note": "full statement; mirrors that reflect both polarizations are an exception (C167_mirror_image_false)"
  },
  {
   "property": "C168",
   "status": "proved",
   "theorems": [
    "Marxs.C168_mosaic",
    "Marxs.C168_seam_false"
   ],
   "note": "full statement; C168_seam_false shows that the condition about seams is needed"
  },
  {
   "property": "C169",
   "status": "proved",
   "theorems": [
    "Marxs.C169_calibration",
    "Marxs.C169_evanescent",
    "Marxs.C169_parallel",
    "Marxs.C169_sorted"
   ],
   "note": "full statement"
  },
  {
   "property": "C170",
   "status": "proved",
   "theorems": [
    "Marxs.C170_reversible",
    "Marxs.C170_cat_false"
   ],
   "note": "full statement; C170_cat_false shows that CAT gratings must be excluded"
  },
  {
   "property": "C171",
   "status": "proved",
   "theorems": [
    "Marxs.C171_order_confusion"
   ],
   "note": "full statement"
  },
  {
   "property": "C172",
   "status": "proved",
   "theorems": [
    "Marxs.C172_aperture_size"
   ],
   "note": "full statement"
  },
  {
   "property": "C173",
   "status": "proved",
   "theorems": [
    "Marxs.C173_small_moves"
   ],
   "note": "flat elements; circular detectors are not covered"
  },
  {
   "property": "C174",
   "status": "proved",
   "theorems": [
    "Marxs.C174_angstrom",
    "Marxs.C174_edges",
    "Marxs.C174_mid",
    "Marxs.C174_infinite"
   ],
   "note": "The response in wavelengths is the response in energies"
  },
  {
   "property": "C175",
   "status": "partial",
   "theorems": [
    "Marxs.C175_angle_partial",
    "Marxs.C175_lines_false",
    "Marxs.C175_degenerate"
   ],
   "note": "for one line; the call for several lines always fails"
  },
  {
   "property": "C176",
   "status": "proved",
   "theorems": [
    "Marxs.C176_csv",
    "Marxs.C176_load_number",
    "Marxs.C176_load_number_errors"
   ],
   "note": "Results are written under the right order, numbers are read from files without ambiguity"
  },
  {
   "property": "C177",
   "status": "proved",
   "theorems": [
    "Marxs.C177_weight",
    "Marxs.C177_throughput",
    "Marxs.C177_list"
   ],
   "note": "The weight of a photon has no influence on its path"
  },
  {
   "property": "C178",
   "status": "proved",
   "theorems": [
    "Marxs.C178_columns",
    "Marxs.C178_elements"
   ],
   "note": "Columns of the user are carried through a simulation"
  },
  {
   "property": "C179",
   "status": "proved",
   "theorems": [
    "Marxs.C179_same",
    "Marxs.C179_larger",
    "Marxs.C179_miss",
    "Marxs.C179_run",
    "Marxs.C179_list"
   ],
   "note": "Tubes (CircularDetector) keep their size: a longer tube can catch a photon on its near side that the shorter one sees on its far side."
  },
  {
   "property": "C180",
   "status": "proved",
   "theorems": [
    "Marxs.C180_anywhere",
    "Marxs.C180_product",
    "Marxs.C180_list"
   ],
   "note": "Where a global filter is put makes no difference"
  },
  {
   "property": "C181",
   "status": "partial",
   "theorems": [
    "Marxs.C181_start_partial",
    "Marxs.C181_back",
    "Marxs.C181_scatter_false"
   ],
   "note": "Missing: false for RadialMirrorScatter with perpplanescatter (C181_scatter_false). Tubes are not covered: a photon that starts further back can hit the near side of a tube first."
  },
  {
   "property": "C182",
   "status": "partial",
   "theorems": [
    "Marxs.C182_chandra",
    "Marxs.C182_acis",
    "Marxs.C182_detnam_partial",
    "Marxs.C182_detnam_false"
   ],
   "note": "Missing: DETNAM identifies the chips only for numbers 0 to 9; with negative numbers, which are accepted, it does not (C182_detnam_false)."
  },
  {
   "property": "C183",
   "status": "partial",
   "theorems": [
    "Marxs.C183_record",
    "Marxs.C183_filter_partial",
    "Marxs.C183_detector_partial"
   ],
   "note": "Missing: the same restriction as for C181; RadialMirrorScatter with perpplanescatter behind an inserted element acts differently (C181_scatter_false)."
  },
  {
   "property": "C184",
   "status": "proved",
   "theorems": [
    "Marxs.C184_path",
    "Marxs.C184_sign",
    "Marxs.C184_blind",
    "Marxs.C184_list"
   ],
   "note": "For all elements of Model/RayChain, including photons with NaN polarization."
  },
  {
   "property": "C185",
   "status": "proved",
   "theorems": [
    "Marxs.C185_path",
    "Marxs.C185_grey",
    "Marxs.C185_list"
   ],
   "note": "For all elements of Model/RayChain except gratings."
  },
  {
   "property": "C186",
   "status": "partial",
   "theorems": [
    "Marxs.C186_source",
    "Marxs.C186_pointing",
    "Marxs.C186_aperture",
    "Marxs.C186_focal_plane",
    "Marxs.C186_hrma_partial",
    "Marxs.C186_hrma_nominal",
    "Marxs.C186_hrma_false",
    "Marxs.C186_det_many_false",
    "Marxs.C186_det_many_dropped_false"
   ],
   "note": "Holds for DefaultSource, DefaultPointing, Aperture and FocalPlaneDet. Missing: HRMA overwrites four keywords (C186_hrma_false) and DetMany does not use any (C186_det_many_dropped_false); it cannot be used at all (C186_det_many_false)."
  },
  {
   "property": "C187",
   "status": "proved",
   "theorems": [
    "Marxs.C187_moved",
    "Marxs.C187_enlarged",
    "Marxs.C187_length"
   ],
   "note": ""
  },
  {
   "property": "C188",
   "status": "partial",
   "theorems": [
    "Marxs.C188_miss",
    "Marxs.C188_arrived",
    "Marxs.C188_sequence_partial",
    "Marxs.C188_place",
    "Marxs.C188_filter",
    "Marxs.C188_lost_false",
    "Marxs.C188_scatter_false"
   ],
   "note": "partial only because the code treats two cases differently in stacks and sequences, see C188_lost_false and C188_scatter_false"
  },
  {
   "property": "C189",
   "status": "proved",
   "theorems": [
    "Marxs.C189_scatter",
    "Marxs.C189_image",
    "Marxs.C189_sharp"
   ],
   "note": "Mirror scatter blurs images by no more than the scattering angles"
  },
  {
   "property": "C190",
   "status": "proved",
   "theorems": [
    "Marxs.C190_success",
    "Marxs.C190_others",
    "Marxs.C190_values",
    "Marxs.C190_instrument",
    "Marxs.C190_twice",
    "Marxs.C190_exception_false"
   ],
   "note": "Chandra header of tables with LSF parameters"
  }
 ]
}