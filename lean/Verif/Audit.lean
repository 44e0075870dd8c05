import Verif.Props.Analyze
import Verif.Props.Analyze3D
import Verif.Props.Analyze3DInt
import Verif.Props.AnalyzeDoc
import Verif.Props.AnalyzeFigure
import Verif.Props.AnalyzeInt
import Verif.Props.AnalyzeNeg
import Verif.Props.Arrays
import Verif.Props.ArraysInt
import Verif.Props.Assign
import Verif.Props.Backend
import Verif.Props.Construct
import Verif.Props.ConstructErr
import Verif.Props.Continuity
import Verif.Props.Contrib
import Verif.Props.Docs
import Verif.Props.Energy
import Verif.Props.EnergyFixed
import Verif.Props.EnergyLimit
import Verif.Props.EnergyNadir
import Verif.Props.Extend
import Verif.Props.Figure3D
import Verif.Props.Frame3D
import Verif.Props.HemCols
import Verif.Props.HemFigure
import Verif.Props.HemFigureCols
import Verif.Props.HemReflect
import Verif.Props.IntRows
import Verif.Props.Interaction
import Verif.Props.JacAxes
import Verif.Props.JacErrors
import Verif.Props.JacKeys
import Verif.Props.JacLayout
import Verif.Props.JacMatrix
import Verif.Props.JacStale
import Verif.Props.JacUse
import Verif.Props.Jacobian
import Verif.Props.Limit
import Verif.Props.Live
import Verif.Props.Logging
import Verif.Props.Misc
import Verif.Props.Missing
import Verif.Props.NadirRow
import Verif.Props.Names
import Verif.Props.Ncoefs
import Verif.Props.Norm
import Verif.Props.Order
import Verif.Props.OrderAngles
import Verif.Props.OrderSupplied
import Verif.Props.Overlay
import Verif.Props.Params
import Verif.Props.Parse
import Verif.Props.ParseScatter
import Verif.Props.Peek
import Verif.Props.PolarArrays
import Verif.Props.PolarFigure
import Verif.Props.PolarPlot
import Verif.Props.QuickPlot
import Verif.Props.Record
import Verif.Props.Remembered
import Verif.Props.Rename
import Verif.Props.RenameObj
import Verif.Props.Retrieval
import Verif.Props.RetrievalInt
import Verif.Props.Rows
import Verif.Props.Scatter
import Verif.Props.Series
import Verif.Props.Stale
import Verif.Props.State
import Verif.Props.Switch
import Verif.Props.SwitchInt
import Verif.Props.Symmetry
import Verif.Props.TauForms
import Verif.Props.Trunc
import Verif.Props.Widgets

/-! Axioms of every property theorem (only propext, Classical.choice, Quot.sound). -/

#print axioms RT1.C01_cosines
#print axioms RT1.C01_surface_volume
#print axioms RT1.C01_calc_interaction
#print axioms RT1.C02_partial
#print axioms RT1.C02_stale
#print axioms RT1.C02_counterexample
#print axioms RT1.C03_monostatic
#print axioms RT1.C03_new
#print axioms RT1.C04_monostatic
#print axioms RT1.C04_bistatic
#print axioms RT1.C04_raises
#print axioms RT1.C05_unknown_name
#print axioms RT1.C05_exit_angle
#print axioms RT1.C06_single_keyword_partial
#print axioms RT1.C06_set_geometry_fails
#print axioms RT1.C06_set_monostatic_fails
#print axioms RT1.C07_last_write_wins
#print axioms RT1.C07_new
#print axioms RT1.C08_assigned
#print axioms RT1.C08_default
#print axioms RT1.C09_update_then_calc
#print axioms RT1.C09_repeat
#print axioms RT1.C10_jacobian_partial
#print axioms RT1.C10_jacobian_values
#print axioms RT1.C10_jacobian_one_key_partial
#print axioms RT1.C10_jacobian_counterexample
#print axioms RT1.C10_attributes
#print axioms RT1.C10_surface_volume
#print axioms RT1.C10_calc_interaction
#print axioms RT1.C11_own_values
#print axioms RT1.C11_value
#print axioms RT1.C12_sympy_partial
#print axioms RT1.C12_symengine_partial
#print axioms RT1.C12_interaction_fails
#print axioms RT1.C12_counterexample
#print axioms RT1.C12_jacobian_fails
#print axioms RT1.C12_jacobian_counterexample
#print axioms RT1.C12_jacobian_partial
#print axioms RT1.C13_monostatic
#print axioms RT1.C13_bistatic
#print axioms RT1.C14_partial
#print axioms RT1.C14_mode_partial
#print axioms RT1.C14_interaction_stale
#print axioms RT1.C14_counterexample
#print axioms RT1.C15_tau_partial
#print axioms RT1.C15_definitions_partial
#print axioms RT1.C15_srf_negation
#print axioms RT1.C15_volume_negation
#print axioms RT1.C15_surface_negation
#print axioms RT1.C15_surface_counterexample
#print axioms RT1.C15_counterexample
#print axioms RT1.C16_results_partial
#print axioms RT1.C16_plot_methods_lost
#print axioms RT1.C17_entries_partial
#print axioms RT1.C17_same_arrays_partial
#print axioms RT1.C17_counterexample
#print axioms RT1.C17_interaction_partial
#print axioms RT1.C17_setter
#print axioms RT1.C17_switching_partial
#print axioms RT1.C17_switching_calc_partial
#print axioms RT1.C17_switching_interaction_partial
#print axioms RT1.C18_surface
#print axioms RT1.C18_surface_linear
#print axioms RT1.C19_volume
#print axioms RT1.C19_volume_linear
#print axioms RT1.C20_interaction_row
#print axioms RT1.C20_total_linear
#print axioms RT1.C20_total_dB
#print axioms RT1.C20_surface_row
#print axioms RT1.C20_volume_row
#print axioms RT1.C20_off_rows
#print axioms RT1.C21_surface
#print axioms RT1.C21_volume
#print axioms RT1.C21_interaction_partial
#print axioms RT1.C21_interaction_nan
#print axioms RT1.C21_calc_counterexample
#print axioms RT1.C22_surface_affine
#print axioms RT1.C22_volume_affine
#print axioms RT1.C22_interaction_affine
#print axioms RT1.C23_surface
#print axioms RT1.C23_volume
#print axioms RT1.C23_interaction
#print axioms RT1.C24_intensity
#print axioms RT1.C24_sigma0
#print axioms RT1.C24_factor
#print axioms RT1.C24_interaction_intensity
#print axioms RT1.C24_interaction_sigma0
#print axioms RT1.C24_interaction_factor
#print axioms RT1.C25_calls
#print axioms RT1.C25_inverse
#print axioms RT1.C26_bounds
#print axioms RT1.C27_monotone
#print axioms RT1.C27_limit
#print axioms RT1.C28_surface
#print axioms RT1.C28_volume
#print axioms RT1.C28_interaction_partial
#print axioms RT1.C28_interaction_counterexample
#print axioms RT1.C29_surface
#print axioms RT1.C29_volume
#print axioms RT1.C29_interaction
#print axioms RT1.C29_monostatic
#print axioms RT1.C30_symmetric
#print axioms RT1.C30_symmetric_symbolic
#print axioms RT1.C30_value
#print axioms RT1.C30_default
#print axioms RT1.C30_bound
#print axioms RT1.C31_mono_bistatic_partial
#print axioms RT1.C31_interaction_partial
#print axioms RT1.C31_interaction_counterexample
#print axioms RT1.C32_fixed_angles_partial
#print axioms RT1.C32_bistatic_counterexample
#print axioms RT1.C33_fn_coefficients
#print axioms RT1.C33_fn_getter
#print axioms RT1.C34_cosine_powers
#print axioms RT1.C35_polar_integral
#print axioms RT1.C36_monostatic_row
#print axioms RT1.C36_monostatic
#print axioms RT1.C36_bistatic_partial
#print axioms RT1.C36_bistatic_counterexample
#print axioms RT1.C37_nonneg
#print axioms RT1.C38_finite_partial
#print axioms RT1.C38_nadir_nan
#print axioms RT1.C38_nadir_counterexample
#print axioms RT1.C38_calc_nadir
#print axioms RT1.C39_normalised
#print axioms RT1.C40_isotropic
#print axioms RT1.C40_cosineLobe
#print axioms RT1.C40_nadirnorm_partial
#print axioms RT1.C41_isotropic
#print axioms RT1.C41_rayleigh
#print axioms RT1.C42_converges
#print axioms RT1.C42_nadirnorm_partial
#print axioms RT1.C42_cosine_lobe
#print axioms RT1.C42_cosine_lobe_zero_counterexample
#print axioms RT1.C43_projection_partial
#print axioms RT1.C43_zero_counterexample
#print axioms RT1.C44_nonneg_partial
#print axioms RT1.C44_nadirnorm_nan
#print axioms RT1.C45_hg_zero
#print axioms RT1.C45_hgRayleigh_zero
#print axioms RT1.C45_flip
#print axioms RT1.C46_normalised
#print axioms RT1.C46_predefined_normalised
#print axioms RT1.C46_calc
#print axioms RT1.C46_weighted_sum
#print axioms RT1.C46_surface
#print axioms RT1.C46_volume
#print axioms RT1.C47_expansion_partial
#print axioms RT1.C47_ncoefs_counterexample
#print axioms RT1.C47_nested_counterexample
#print axioms RT1.C48_fn_coefficients
#print axioms RT1.C49_omega_partial
#print axioms RT1.C49_NormBRDF_partial
#print axioms RT1.C49_bsf_partial
#print axioms RT1.C50_error_partial
#print axioms RT1.C50_partial
#print axioms RT1.C50_counterexample
#print axioms RT1.C51_partial
#print axioms RT1.C51_counterexample
#print axioms RT1.C52_partial
#print axioms RT1.C52_counterexample
#print axioms RT1.C52_uses_partial
#print axioms RT1.C53_static_partial
#print axioms RT1.C53_three_axes_negation
#print axioms RT1.C53_three_axes_counterexample
#print axioms RT1.C53_partial
#print axioms RT1.C53_angles_partial
#print axioms RT1.C53_counterexample
#print axioms RT1.C54_unknown_name_never
#print axioms RT1.C54_unknown_name
#print axioms RT1.C54_unknown_format
#print axioms RT1.C55_surface
#print axioms RT1.C55_volume
#print axioms RT1.C56_interaction_partial
#print axioms RT1.C56_rank_two_counterexample
#print axioms RT1.C57_calc_partial
#print axioms RT1.C57_exact
#print axioms RT1.C57_common_partial
#print axioms RT1.C57_calc_interaction_partial
#print axioms RT1.C57_rank_two_counterexample
#print axioms RT1.C57_shapes_counterexample
#print axioms RT1.C57_exact_interaction
#print axioms RT1.C57_returns
#print axioms RT1.C58_not_needed
#print axioms RT1.C58_required
#print axioms RT1.C59_same_arrays_partial
#print axioms RT1.C59_interaction_partial
#print axioms RT1.C59_rows_partial
#print axioms RT1.C59_zero_partial
#print axioms RT1.C59_counterexample
#print axioms RT1.C60_fnevals_input
#print axioms RT1.C60_fn_input
#print axioms RT1.C61_explicit_start
#print axioms RT1.C61_default_partial
#print axioms RT1.C61_counterexample
#print axioms RT1.C62_rows
#print axioms RT1.C62_unknown
#print axioms RT1.C62_restored
#print axioms RT1.C62_total_partial
#print axioms RT1.C63_merge
#print axioms RT1.C64_missing
#print axioms RT1.C64_sliders
#print axioms RT1.C64_works_partial
#print axioms RT1.C64_events_partial
#print axioms RT1.C64_works_interaction_partial
#print axioms RT1.C64_missing3d
#print axioms RT1.C64_sliders3d
#print axioms RT1.C64_works3d_partial
#print axioms RT1.C64_works3d_interaction_partial
#print axioms RT1.C64_events_interaction_partial
#print axioms RT1.C64_angle_negation
#print axioms RT1.C64_inc_negation
#print axioms RT1.C64_angle_counterexample
#print axioms RT1.C64_inc_counterexample
#print axioms RT1.C65_lines_partial
#print axioms RT1.C65_dashed_partial
#print axioms RT1.C65_switch_counterexample
#print axioms RT1.C65_sliders
#print axioms RT1.C66_interaction_partial
#print axioms RT1.C66_bare_partial
#print axioms RT1.C66_overlay_partial
#print axioms RT1.C66_works_partial
#print axioms RT1.C66_omega_counterexample
#print axioms RT1.C67_partial
#print axioms RT1.C67_range
#print axioms RT1.C67_range_counterexample
#print axioms RT1.C67_moves_partial
#print axioms RT1.C68_surfaces
#print axioms RT1.C68_distance
#print axioms RT1.C68_sliders
#print axioms RT1.C69_analyze
#print axioms RT1.C69_event
#print axioms RT1.C69_geometry
#print axioms RT1.C69_analyze3d
#print axioms RT1.C69_slide3d
#print axioms RT1.C70_columns_partial
#print axioms RT1.C70_object_columns_partial
#print axioms RT1.C70_list_negation
#print axioms RT1.C70_list_counterexample
#print axioms RT1.C70_converges_partial
#print axioms RT1.C70_object_partial
#print axioms RT1.C70_simpson_partial
#print axioms RT1.C70_simpson_even_partial
#print axioms RT1.C70_warning
#print axioms RT1.C70_azimuth_negation
#print axioms RT1.C70_predefined_partial
#print axioms RT1.C70_nadir
#print axioms RT1.C70_azimuth_counterexample
#print axioms RT1.C71_arrays
#print axioms RT1.C71_arrays_succeed_partial
#print axioms RT1.C71_arrays_negation
#print axioms RT1.C71_arrays_counterexample
#print axioms RT1.C71_draws
#print axioms RT1.C71_missing
#print axioms RT1.C71_succeeds_partial
#print axioms RT1.C71_picture_volume
#print axioms RT1.C71_picture_surface
#print axioms RT1.C71_dashed_exact
#print axioms RT1.C71_dashed_converges
#print axioms RT1.C71_isotropic_negation
#print axioms RT1.C71_isotropic_counterexample
#print axioms RT1.C71_nested_counterexample
#print axioms RT1.C72_level_partial
#print axioms RT1.C72_notset_negation
#print axioms RT1.C72_notset_counterexample
#print axioms RT1.C72_unknown_level
#print axioms RT1.C72_short_names
#print axioms RT1.C72_format_string
#print axioms RT1.C72_format_kept
#print axioms RT1.C72_format_negation
#print axioms RT1.C72_basic_counterexample
#print axioms RT1.C73_exact_partial
#print axioms RT1.C73_takes_effect_partial
#print axioms RT1.C73_no_effect_partial
#print axioms RT1.C73_counterexample
#print axioms RT1.C73_interaction_partial
#print axioms RT1.C73_calc_partial
#print axioms RT1.C73_interaction_repeat_partial
#print axioms RT1.C73_interaction_effect_partial
#print axioms RT1.C74_first_order
#print axioms RT1.C74_interaction_partial
#print axioms RT1.C74_predefined
#print axioms RT1.C74_isotropic_partial
#print axioms RT1.C74_hg_surface_amplifies
#print axioms RT1.C74_fixed_partial
#print axioms RT1.C74_limit_partial
#print axioms RT1.C74_truncated_partial
#print axioms RT1.C74_predefined_limit_partial
#print axioms RT1.C74_nadir_negation
#print axioms RT1.C75_monostatic
#print axioms RT1.C75_bistatic_partial
#print axioms RT1.C75_total
#print axioms RT1.C75_total_bistatic_partial
#print axioms RT1.C75_fixed_partial
#print axioms RT1.C75_total_fixed_partial
#print axioms RT1.C75_nonneg
#print axioms RT1.C76_omega
#print axioms RT1.C76_norm
#print axioms RT1.C76_tau
#print axioms RT1.C76_bsf
#print axioms RT1.C76_omega_interaction
#print axioms RT1.C76_norm_interaction
#print axioms RT1.C76_volume_pair
#print axioms RT1.C76_surface_pair
#print axioms RT1.C76_single_counterexample
#print axioms RT1.C76_bsf_interaction
#print axioms RT1.C76_tau_counterexample
#print axioms RT1.C77_reader
#print axioms RT1.C77_unique
#print axioms RT1.C77_merge_partial
#print axioms RT1.C77_inherited_partial
#print axioms RT1.C77_references_negation
#print axioms RT1.C77_references_counterexample
#print axioms RT1.C78_error
#print axioms RT1.C78_error_dB
#print axioms RT1.C78_total
#print axioms RT1.C78_exact
#print axioms RT1.C78_bistatic_partial
#print axioms RT1.C78_fixed_partial
#print axioms RT1.C78_total_bistatic_partial
#print axioms RT1.C79_first_order
#print axioms RT1.C79_interaction
#print axioms RT1.C79_limit
#print axioms RT1.C79_limit_first_order
#print axioms RT1.C79_hidden
#print axioms RT1.C80_surface
#print axioms RT1.C80_volume
#print axioms RT1.C80_first_order
#print axioms RT1.C80_interaction
#print axioms RT1.C80_total
#print axioms RT1.C80_nadir
#print axioms RT1.C80_bare
#print axioms RT1.C80_no_jump
#print axioms RT1.C80_thin
#print axioms RT1.C80_thin_first_order
#print axioms RT1.C80_between
#print axioms RT1.C81_settings
#print axioms RT1.C81_settings_partial
#print axioms RT1.C81_inserted
#print axioms RT1.C81_inserted_partial
#print axioms RT1.C81_again
#print axioms RT1.C81_jacobian
#print axioms RT1.C81_inserted_jacobian
#print axioms RT1.C81_jacobian_partial
#print axioms RT1.C81_counterexample
#print axioms RT1.C82_settings
#print axioms RT1.C82_answers
#print axioms RT1.C82_trace
#print axioms RT1.C82_answers_partial
#print axioms RT1.C82_counterexample
#print axioms RT1.C82_trace_interaction
#print axioms RT1.C82_interaction_exact
#print axioms RT1.C82_total_exact
#print axioms RT1.C83_takes_effect_partial
#print axioms RT1.C83_first_negation
#print axioms RT1.C83_moment
#print axioms RT1.C83_constant
#print axioms RT1.C83_expansion_partial
#print axioms RT1.C83_counterexample
#print axioms RT1.C83_expansion_counterexample
#print axioms RT1.C84_keywords
#print axioms RT1.C84_keywords_first_order
#print axioms RT1.C84_settings
#print axioms RT1.C84_split
#print axioms RT1.C84_angles
#print axioms RT1.C84_angles_counterexample
#print axioms RT1.C84_supplied_counterexample
#print axioms RT1.C85_limits
#print axioms RT1.C85_visible
#print axioms RT1.C85_blank
#print axioms RT1.C85_tall
#print axioms RT1.C85_rays
#print axioms RT1.C85_specular
#print axioms RT1.C85_backscatter
#print axioms RT1.C86_accepts
#print axioms RT1.C86_value
#print axioms RT1.C86_keywords
#print axioms RT1.C86_errors
#print axioms RT1.C86_lin_accepts
#print axioms RT1.C86_lin_value
#print axioms RT1.C86_range_counterexample
#print axioms RT1.C86_ncoefs_counterexample
#print axioms RT1.C86_mixed_counterexample
#print axioms RT1.C86_lin_errors
#print axioms RT1.C87_matrix_partial
#print axioms RT1.C88_curve
#print axioms RT1.C88_empty
#print axioms RT1.C88_nan
#print axioms RT1.C88_norms_partial
#print axioms RT1.C88_cut_negation
#print axioms RT1.C88_cut_counterexample
#print axioms RT1.C88_columns_negation
#print axioms RT1.C88_columns_counterexample
#print axioms RT1.C88_transposed_negation
#print axioms RT1.C89_names_partial
#print axioms RT1.C89_clash_negation
#print axioms RT1.C89_clash_counterexample
#print axioms RT1.C90_constants
#print axioms RT1.C90_text_partial
#print axioms RT1.C90_names_negation
#print axioms RT1.C90_counterexample
#print axioms RT1.C90_function_constants
#print axioms RT1.C90_function_partial
#print axioms RT1.C90_weights
#print axioms RT1.C91_calc
#print axioms RT1.C91_hemreflect
#print axioms RT1.C91_expansion_partial
#print axioms RT1.C91_index_partial
#print axioms RT1.C91_index_counterexample
#print axioms RT1.C91_index_negation
#print axioms RT1.C92_objects
#print axioms RT1.C92_interaction_partial
#print axioms RT1.C92_interaction_values_partial
#print axioms RT1.C92_jacobian_partial
#print axioms RT1.C93_arguments
#print axioms RT1.C93_polarplot
#print axioms RT1.C93_polarplot_drawn
#print axioms RT1.C93_polarplot_positional
#print axioms RT1.C93_polarplot_other
#print axioms RT1.C93_hemreflect
#print axioms RT1.C93_hemreflect_evaluated
#print axioms RT1.C93_hemreflect_volume
#print axioms RT1.C93_analyze
#print axioms RT1.C93_analyze3d
#print axioms RT1.C93_analyze_rejected
#print axioms RT1.C93_analyze_names_negation
#print axioms RT1.C93_analyze3d_names_negation
#print axioms RT1.C93_names_counterexample
#print axioms RT1.C93_unavailable
#print axioms RT1.C94_colours
#print axioms RT1.C94_distinct
#print axioms RT1.C94_legend
#print axioms RT1.C94_ground_title
#print axioms RT1.C94_ticks_partial
#print axioms RT1.C94_ticks_negation
#print axioms RT1.C94_ticks_counterexample
#print axioms RT1.C95_places
#print axioms RT1.C95_sliders
#print axioms RT1.C95_sliders3d
#print axioms RT1.C95_active
#print axioms RT1.C95_click
#print axioms RT1.C95_none_negation
#print axioms RT1.C95_units
#print axioms RT1.C96_content
#print axioms RT1.C96_failed
#print axioms RT1.C96_legend
#print axioms RT1.C96_identify
#print axioms RT1.C96_ground
#print axioms RT1.C96_reach
#print axioms RT1.C96_above
#print axioms RT1.C97_lines_partial
#print axioms RT1.C97_lines_interaction_partial
#print axioms RT1.C97_angles
#print axioms RT1.C97_surfaces_partial
