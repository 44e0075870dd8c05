{
 "claims": [
  {
   "property": "C01",
   "status": "proved",
   "theorems": [
    "RT1.C01_cosines",
    "RT1.C01_surface_volume",
    "RT1.C01_calc_interaction"
   ],
   "note": "No stale cosines"
  },
  {
   "property": "C02",
   "status": "partial",
   "theorems": [
    "RT1.C02_partial",
    "RT1.C02_stale",
    "RT1.C02_counterexample"
   ],
   "note": "Proved: after any history (arrays overwritten in place included), once a mode call or a successful set_geometry call was made, later surface/volume evaluations agree with the reported angles as long as no array is overwritten again. The full claim is false: np.atleast_1d aliases the caller's array, so C02_counterexample reports t_0 = 0 but returns the value for 60 degrees; C02_stale is the general form."
  },
  {
   "property": "C03",
   "status": "proved",
   "theorems": [
    "RT1.C03_monostatic",
    "RT1.C03_new"
   ],
   "note": "Monostatic relations"
  },
  {
   "property": "C04",
   "status": "proved",
   "theorems": [
    "RT1.C04_monostatic",
    "RT1.C04_bistatic",
    "RT1.C04_raises"
   ],
   "note": "Fixed angles stay fixed"
  },
  {
   "property": "C05",
   "status": "proved",
   "theorems": [
    "RT1.C05_unknown_name",
    "RT1.C05_exit_angle"
   ],
   "note": "Invalid set_geometry calls have no effect"
  },
  {
   "property": "C06",
   "status": "partial",
   "theorems": [
    "RT1.C06_single_keyword_partial",
    "RT1.C06_set_geometry_fails",
    "RT1.C06_set_monostatic_fails"
   ],
   "note": "Holds for set_geometry with one keyword (and for the errors of C05). False in general: witnesses C06_set_geometry_fails, C06_set_monostatic_fails."
  },
  {
   "property": "C07",
   "status": "proved",
   "theorems": [
    "RT1.C07_last_write_wins",
    "RT1.C07_new"
   ],
   "note": "Parameter dictionary is a last-write-wins map"
  },
  {
   "property": "C08",
   "status": "proved",
   "theorems": [
    "RT1.C08_assigned",
    "RT1.C08_default"
   ],
   "note": "Parameter getters are never stale"
  },
  {
   "property": "C09",
   "status": "proved",
   "theorems": [
    "RT1.C09_update_then_calc",
    "RT1.C09_repeat"
   ],
   "note": "calc(**p) is update_params(**p) then calc()"
  },
  {
   "property": "C10",
   "status": "partial",
   "theorems": [
    "RT1.C10_jacobian_partial",
    "RT1.C10_jacobian_values",
    "RT1.C10_jacobian_one_key_partial",
    "RT1.C10_jacobian_counterexample",
    "RT1.C10_attributes",
    "RT1.C10_surface_volume",
    "RT1.C10_calc_interaction"
   ],
   "note": "Attributes, getters, calc, surface, volume, interaction. jacobian: if the call succeeds with and without calls on other objects in between, the results are the same (C10_jacobian_partial for sympy; C10_jacobian_values for the values with either backend); with sympy and one name success is kept (C10_jacobian_one_key_partial). False for failures: a call that raises because of an outdated derivative succeeds after another object cleared the shared tables (C10_jacobian_counterexample)."
  },
  {
   "property": "C11",
   "status": "proved",
   "theorems": [
    "RT1.C11_own_values",
    "RT1.C11_value"
   ],
   "note": "Interaction uses each parameter's own value"
  },
  {
   "property": "C12",
   "status": "partial",
   "theorems": [
    "RT1.C12_sympy_partial",
    "RT1.C12_symengine_partial",
    "RT1.C12_interaction_fails",
    "RT1.C12_counterexample",
    "RT1.C12_jacobian_fails",
    "RT1.C12_jacobian_counterexample",
    "RT1.C12_jacobian_partial"
   ],
   "note": "Surface, volume and calc without interaction: with sympy a further parameter never makes the evaluation fail and does not change the result (C12_sympy_partial); with either backend if its value can be broadcast to the shape of t_0 (C12_symengine_partial). False for the interaction term: once it has been evaluated, any further name makes it fail (C12_interaction_fails, C12_counterexample), because the coefficients were compiled for the earlier names. jacobian: builtin names, and all names with symengine, keep working (C12_jacobian_partial); with sympy any other name that was used once raises as soon as a parameter was added (C12_jacobian_fails, C12_jacobian_counterexample)."
  },
  {
   "property": "C13",
   "status": "proved",
   "theorems": [
    "RT1.C13_monostatic",
    "RT1.C13_bistatic"
   ],
   "note": "Coefficients follow the geometry mode"
  },
  {
   "property": "C14",
   "status": "partial",
   "theorems": [
    "RT1.C14_partial",
    "RT1.C14_mode_partial",
    "RT1.C14_interaction_stale",
    "RT1.C14_counterexample"
   ],
   "note": "Proved for surface, volume and calc without interaction term after any history with assignments; with interaction term once the geometry mode is set again after the assignment (C14_mode_partial). The full claim is false: C14_interaction_stale (the interaction term ignores the newly assigned functions) and C14_counterexample."
  },
  {
   "property": "C15",
   "status": "partial",
   "theorems": [
    "RT1.C15_tau_partial",
    "RT1.C15_definitions_partial",
    "RT1.C15_srf_negation",
    "RT1.C15_volume_negation",
    "RT1.C15_surface_negation",
    "RT1.C15_surface_counterexample",
    "RT1.C15_counterexample"
   ],
   "note": "calc reports exactly the missing names if tau lacks one (no other condition), or if omega, NormBRDF or bsf lacks one and V, SRF lack none. False in general: names missing in V or SRF only raise NameError (sympy) or RuntimeError (symengine) (C15_srf_negation, C15_volume_negation, C15_counterexample); surface() names those of tau only (C15_surface_negation, C15_surface_counterexample)."
  },
  {
   "property": "C16",
   "status": "partial",
   "theorems": [
    "RT1.C16_results_partial",
    "RT1.C16_plot_methods_lost"
   ],
   "note": "All evaluation results and attributes are preserved; the plot methods are lost on the live and the loaded object (C16_plot_methods_lost)."
  },
  {
   "property": "C17",
   "status": "partial",
   "theorems": [
    "RT1.C17_entries_partial",
    "RT1.C17_same_arrays_partial",
    "RT1.C17_counterexample",
    "RT1.C17_interaction_partial",
    "RT1.C17_setter",
    "RT1.C17_switching_partial",
    "RT1.C17_switching_calc_partial",
    "RT1.C17_switching_interaction_partial"
   ],
   "note": "For complete inputs whose parameter values fit a common shape, both backends give the same surface, volume and calc arrays (C17_same_arrays_partial), entries that both return are equal (C17_entries_partial), also for the interaction at oblique angles (C17_interaction_partial). C17_counterexample: a stored but unused parameter value of an unfitting shape makes evaluation fail with symengine and not with sympy. Choosing the backend is C17_setter. Programs that change the backend in between, for every rule which compiled function keeps which backend: surface, volume and the derivatives with respect to tau, omega, NormBRDF and bsf lie between the results of the two backends, with equal entries (C17_switching_partial, C17_switching_calc_partial); calc without interaction is the common result if both agree on the shape. Entries of the interaction term at oblique angles in such programs: C17_switching_interaction_partial. Not proved: symbol derivatives in such programs."
  },
  {
   "property": "C18",
   "status": "proved",
   "theorems": [
    "RT1.C18_surface",
    "RT1.C18_surface_linear"
   ],
   "note": "Surface contribution"
  },
  {
   "property": "C19",
   "status": "proved",
   "theorems": [
    "RT1.C19_volume",
    "RT1.C19_volume_linear"
   ],
   "note": "Volume contribution"
  },
  {
   "property": "C20",
   "status": "proved",
   "theorems": [
    "RT1.C20_interaction_row",
    "RT1.C20_total_linear",
    "RT1.C20_total_dB",
    "RT1.C20_surface_row",
    "RT1.C20_volume_row",
    "RT1.C20_off_rows"
   ],
   "note": "Total is the sum of the contributions"
  },
  {
   "property": "C21",
   "status": "partial",
   "theorems": [
    "RT1.C21_surface",
    "RT1.C21_volume",
    "RT1.C21_interaction_partial",
    "RT1.C21_interaction_nan",
    "RT1.C21_calc_counterexample"
   ],
   "note": "Surface and volume at every optical depth; interaction row of calc if no observation is at nadir (C21_interaction_partial). False for interaction() and for calc rows containing nadir: witnesses C21_interaction_nan, C21_calc_counterexample."
  },
  {
   "property": "C22",
   "status": "proved",
   "theorems": [
    "RT1.C22_surface_affine",
    "RT1.C22_volume_affine",
    "RT1.C22_interaction_affine"
   ],
   "note": "Surface, volume; interaction (interaction() and row 3 of calc) for directions strictly between nadir and horizon."
  },
  {
   "property": "C23",
   "status": "proved",
   "theorems": [
    "RT1.C23_surface",
    "RT1.C23_volume",
    "RT1.C23_interaction"
   ],
   "note": "Surface, volume; interaction (interaction() and row 3 of calc) for directions strictly between nadir and horizon."
  },
  {
   "property": "C24",
   "status": "proved",
   "theorems": [
    "RT1.C24_intensity",
    "RT1.C24_sigma0",
    "RT1.C24_factor",
    "RT1.C24_interaction_intensity",
    "RT1.C24_interaction_sigma0",
    "RT1.C24_interaction_factor"
   ],
   "note": "Surface, volume; interaction (interaction() and row 3 of calc) for directions strictly between nadir and horizon."
  },
  {
   "property": "C25",
   "status": "proved",
   "theorems": [
    "RT1.C25_calls",
    "RT1.C25_inverse"
   ],
   "note": "Decibel conversion"
  },
  {
   "property": "C26",
   "status": "proved",
   "theorems": [
    "RT1.C26_bounds"
   ],
   "note": "Contributions are physical: non-negative and bounded"
  },
  {
   "property": "C27",
   "status": "proved",
   "theorems": [
    "RT1.C27_monotone",
    "RT1.C27_limit"
   ],
   "note": "Monotone in optical depth"
  },
  {
   "property": "C28",
   "status": "partial",
   "theorems": [
    "RT1.C28_surface",
    "RT1.C28_volume",
    "RT1.C28_interaction_partial",
    "RT1.C28_interaction_counterexample"
   ],
   "note": "Surface and volume: proved for all directions, for scattering functions whose own parameters do not use the angle names. Interaction: proved for bistatic objects without fixed angles; false for objects with an angle fixed by set_bistatic (C28_interaction_counterexample)."
  },
  {
   "property": "C29",
   "status": "proved",
   "theorems": [
    "RT1.C29_surface",
    "RT1.C29_volume",
    "RT1.C29_interaction",
    "RT1.C29_monostatic"
   ],
   "note": "For scattering functions whose own parameters do not use the angle names and whose a[1], a[2] have the same finite value (also for all parts of a combination)."
  },
  {
   "property": "C30",
   "status": "proved",
   "theorems": [
    "RT1.C30_symmetric",
    "RT1.C30_symmetric_symbolic",
    "RT1.C30_value",
    "RT1.C30_default",
    "RT1.C30_bound"
   ],
   "note": "Scattering angle is a cosine"
  },
  {
   "property": "C31",
   "status": "partial",
   "theorems": [
    "RT1.C31_mono_bistatic_partial",
    "RT1.C31_interaction_partial",
    "RT1.C31_interaction_counterexample"
   ],
   "note": "Surface and volume: same value in both modes. Interaction: same value if the surface expansion is insensitive to an azimuth shift by pi; false in general (C31_interaction_counterexample)."
  },
  {
   "property": "C32",
   "status": "partial",
   "theorems": [
    "RT1.C32_fixed_angles_partial",
    "RT1.C32_bistatic_counterexample"
   ],
   "note": "Surface, volume (all modes), interaction (monostatic). False for the interaction of bistatic objects (C32_bistatic_counterexample)."
  },
  {
   "property": "C33",
   "status": "proved",
   "theorems": [
    "RT1.C33_fn_coefficients",
    "RT1.C33_fn_getter"
   ],
   "note": "fn-coefficients solve their defining equation"
  },
  {
   "property": "C34",
   "status": "proved",
   "theorems": [
    "RT1.C34_cosine_powers"
   ],
   "note": "Azimuth integrals of cosine powers"
  },
  {
   "property": "C35",
   "status": "proved",
   "theorems": [
    "RT1.C35_polar_integral"
   ],
   "note": "Closed form of the polar integral"
  },
  {
   "property": "C36",
   "status": "partial",
   "theorems": [
    "RT1.C36_monostatic_row",
    "RT1.C36_monostatic",
    "RT1.C36_bistatic_partial",
    "RT1.C36_bistatic_counterexample"
   ],
   "note": "Monostatic objects return the documented double integral. Bistatic objects use the exit azimuth plus pi in the surface expansion (C36_bistatic_partial); the documented value is missed (C36_bistatic_counterexample)."
  },
  {
   "property": "C37",
   "status": "proved",
   "theorems": [
    "RT1.C37_nonneg"
   ],
   "note": "Interaction is non-negative for non-negative expansions"
  },
  {
   "property": "C38",
   "status": "partial",
   "theorems": [
    "RT1.C38_finite_partial",
    "RT1.C38_nadir_nan",
    "RT1.C38_nadir_counterexample",
    "RT1.C38_calc_nadir"
   ],
   "note": "Finite for directions strictly between nadir and horizon (surface, volume also at nadir). The interaction is nan at nadir (C38_nadir_nan, C38_nadir_counterexample); so are the total and the interaction rows of calc, for any shapes (C38_calc_nadir)."
  },
  {
   "property": "C39",
   "status": "proved",
   "theorems": [
    "RT1.C39_normalised"
   ],
   "note": "Volume phase functions are normalised"
  },
  {
   "property": "C40",
   "status": "partial",
   "theorems": [
    "RT1.C40_isotropic",
    "RT1.C40_cosineLobe",
    "RT1.C40_nadirnorm_partial"
   ],
   "note": "HG_nadirnorm for non-zero t and a[0] (C40_nadirnorm_partial); for t=0 or a[0]=0 the code returns nan (C44_nadirnorm_nan)."
  },
  {
   "property": "C41",
   "status": "proved",
   "theorems": [
    "RT1.C41_isotropic",
    "RT1.C41_rayleigh"
   ],
   "note": "Exact Legendre expansions"
  },
  {
   "property": "C42",
   "status": "partial",
   "theorems": [
    "RT1.C42_converges",
    "RT1.C42_nadirnorm_partial",
    "RT1.C42_cosine_lobe",
    "RT1.C42_cosine_lobe_zero_counterexample"
   ],
   "note": "Proved for every direction pair for the two Henyey-Greenstein functions and HGRayleigh (|t|<1), and for CosineLobe with i >= 1 (C42_cosine_lobe). HG_nadirnorm only for t and a[0] nonzero (C42_nadirnorm_partial): otherwise the code divides 0 by 0, see C44_nadirnorm_nan. CosineLobe(0) converges to half the value at right scattering angles (C42_cosine_lobe_zero_counterexample)."
  },
  {
   "property": "C43",
   "status": "partial",
   "theorems": [
    "RT1.C43_projection_partial",
    "RT1.C43_zero_counterexample"
   ],
   "note": "Proved for every power i >= 1 and every n. False for the admissible power i = 0 (C43_zero_counterexample): the phase function is constant 1/pi but the coefficients are those of a half-sphere step."
  },
  {
   "property": "C44",
   "status": "partial",
   "theorems": [
    "RT1.C44_nonneg_partial",
    "RT1.C44_nadirnorm_nan"
   ],
   "note": "All built-in functions and combinations with nonnegative weights, HG_nadirnorm with t and a[0] nonzero. HG_nadirnorm with t=0 or a[0]=0 returns nan: C44_nadirnorm_nan."
  },
  {
   "property": "C45",
   "status": "proved",
   "theorems": [
    "RT1.C45_hg_zero",
    "RT1.C45_hgRayleigh_zero",
    "RT1.C45_flip"
   ],
   "note": "Symmetries of the Henyey-Greenstein family"
  },
  {
   "property": "C46",
   "status": "proved",
   "theorems": [
    "RT1.C46_normalised",
    "RT1.C46_predefined_normalised",
    "RT1.C46_calc",
    "RT1.C46_weighted_sum",
    "RT1.C46_surface",
    "RT1.C46_volume"
   ],
   "note": "Value of calc (also nested, inf and nan parts), surface and volume contributions, normalisation for weights summing to 1."
  },
  {
   "property": "C47",
   "status": "partial",
   "theorems": [
    "RT1.C47_expansion_partial",
    "RT1.C47_ncoefs_counterexample",
    "RT1.C47_nested_counterexample"
   ],
   "note": "Expansion of combinations of predefined parts, if within each group of equal a the coefficients of a part beyond its own ncoefs vanish. False otherwise: C47_ncoefs_counterexample; nested combinations raise: C47_nested_counterexample."
  },
  {
   "property": "C48",
   "status": "proved",
   "theorems": [
    "RT1.C48_fn_coefficients"
   ],
   "note": "LinComb works with the interaction term"
  },
  {
   "property": "C49",
   "status": "partial",
   "theorems": [
    "RT1.C49_omega_partial",
    "RT1.C49_NormBRDF_partial",
    "RT1.C49_bsf_partial"
   ],
   "note": "omega, NormBRDF and bsf entries are the derivatives in all four units; in linear sigma0 units only for I0 = 1 (see C51)."
  },
  {
   "property": "C50",
   "status": "partial",
   "theorems": [
    "RT1.C50_error_partial",
    "RT1.C50_partial",
    "RT1.C50_counterexample"
   ],
   "note": "False in general (C50_counterexample at 60 degrees). Proved: the entry is the derivative plus an explicit error term, which vanishes for cos(t_ex) = 1."
  },
  {
   "property": "C51",
   "status": "partial",
   "theorems": [
    "RT1.C51_partial",
    "RT1.C51_counterexample"
   ],
   "note": "False (C51_counterexample, I0 = 2). Proved: the entry is I0 times the derivative of the returned sigma0."
  },
  {
   "property": "C52",
   "status": "partial",
   "theorems": [
    "RT1.C52_partial",
    "RT1.C52_counterexample",
    "RT1.C52_uses_partial"
   ],
   "note": "C52_partial: the entry for a name used in omega, NormBRDF, bsf, V or SRF is the derivative of the signal, if the name is not used for tau and used only once in the surface and once in the volume term (and I0 = 1 in linear sigma0 units). C52_uses_partial: for any name the exact value: the derivative is the sum over all places where the name is used, the code returns the summands of one place of the surface and one place of the volume term (plus the error of C50, times I0 in linear sigma0 units). C52_counterexample: with tau defined as x the derivative of the surface attenuation is missing and the entry even has the wrong sign, so the full statement is false of the code."
  },
  {
   "property": "C53",
   "status": "partial",
   "theorems": [
    "RT1.C53_static_partial",
    "RT1.C53_three_axes_negation",
    "RT1.C53_three_axes_counterexample",
    "RT1.C53_partial",
    "RT1.C53_angles_partial",
    "RT1.C53_counterexample"
   ],
   "note": "False if the entries have fewer axes than the observations, e.g. one incidence angle for all timestamps and a timeseries omega with the sympy backend (C53_counterexample), and for timeseries parameters of observations with three axes (C53_three_axes_negation, C53_three_axes_counterexample: too few rows). Proved whenever all entries have the shape (n, k) or (n,), in particular when the incidence angles have this shape (C53_angles_partial), and for parameters with one value whatever the number of axes (C53_static_partial)."
  },
  {
   "property": "C54",
   "status": "proved",
   "theorems": [
    "RT1.C54_unknown_name_never",
    "RT1.C54_unknown_name",
    "RT1.C54_unknown_format"
   ],
   "note": "AssertionError if the names before the unknown one (and the unit factor) can be evaluated, otherwise the error of those; a call with an unknown name or format never returns."
  },
  {
   "property": "C55",
   "status": "proved",
   "theorems": [
    "RT1.C55_surface",
    "RT1.C55_volume"
   ],
   "note": "Surface and volume: element of the array result equals the scalar call with the elements of the arguments, any shapes."
  },
  {
   "property": "C56",
   "status": "partial",
   "theorems": [
    "RT1.C56_interaction_partial",
    "RT1.C56_rank_two_counterexample"
   ],
   "note": "Each value returned for an array equals the scalar evaluation, for aligned axes (ObservesP: all arguments scalar or of equal rank one). False for two-dimensional arguments (C56_rank_two_counterexample)."
  },
  {
   "property": "C57",
   "status": "partial",
   "theorems": [
    "RT1.C57_calc_partial",
    "RT1.C57_exact",
    "RT1.C57_common_partial",
    "RT1.C57_calc_interaction_partial",
    "RT1.C57_rank_two_counterexample",
    "RT1.C57_shapes_counterexample",
    "RT1.C57_exact_interaction",
    "RT1.C57_returns"
   ],
   "note": "calc returns the broadcast shape if t_0 already has it, if (without interaction) no smaller shape holds all of t_0, I0, tau and bsf (C57_common_partial), and (with interaction) if the axes are aligned. C57_exact (without interaction) and C57_exact_interaction decide from the shapes of the contributions when calc returns an array and when it raises ValueError; C57_returns says when calc returns an array at all. False if t_0 is smaller than the broadcast shape (C57_shapes_counterexample) and for two-dimensional arguments with interaction (C57_rank_two_counterexample)."
  },
  {
   "property": "C58",
   "status": "proved",
   "theorems": [
    "RT1.C58_not_needed",
    "RT1.C58_required"
   ],
   "note": "ncoefs only needed for the interaction"
  },
  {
   "property": "C59",
   "status": "partial",
   "theorems": [
    "RT1.C59_same_arrays_partial",
    "RT1.C59_interaction_partial",
    "RT1.C59_rows_partial",
    "RT1.C59_zero_partial",
    "RT1.C59_counterexample"
   ],
   "note": "proved for any value that is assigned or given as parameter: identical arrays from surface, volume and calc without interaction term (numbers for tau must be positive), and identical interaction values/rows away from nadir and horizon; tau = 0 via C21. C59_counterexample: for negative numbers assigned to tau calc returns zero, for negative parameter values it evaluates the formula."
  },
  {
   "property": "C60",
   "status": "proved",
   "theorems": [
    "RT1.C60_fnevals_input",
    "RT1.C60_fn_input"
   ],
   "note": "Pre-computed coefficients are honoured"
  },
  {
   "property": "C61",
   "status": "partial",
   "theorems": [
    "RT1.C61_explicit_start",
    "RT1.C61_default_partial",
    "RT1.C61_counterexample"
   ],
   "note": "C61_explicit_start: an explicit start value is used as given. C61_default_partial: the default start value is the centre of the range exactly when the range starts at 0. C61_counterexample: the code takes half the width (max-min)/2, so the claim is false in general."
  },
  {
   "property": "C62",
   "status": "partial",
   "theorems": [
    "RT1.C62_rows",
    "RT1.C62_unknown",
    "RT1.C62_restored",
    "RT1.C62_total_partial"
   ],
   "note": "C62_rows, C62_unknown, C62_restored proved. C62_total_partial: with int_Q set and no 'i' requested, the drawn total lacks the interaction contribution, so the total-row part of the claim holds only otherwise."
  },
  {
   "property": "C63",
   "status": "proved",
   "theorems": [
    "RT1.C63_merge"
   ],
   "note": "The parameter lists of merged docstrings; for the text see C77."
  },
  {
   "property": "C64",
   "status": "partial",
   "theorems": [
    "RT1.C64_missing",
    "RT1.C64_sliders",
    "RT1.C64_works_partial",
    "RT1.C64_events_partial",
    "RT1.C64_works_interaction_partial",
    "RT1.C64_missing3d",
    "RT1.C64_sliders3d",
    "RT1.C64_works3d_partial",
    "RT1.C64_works3d_interaction_partial",
    "RT1.C64_events_interaction_partial",
    "RT1.C64_angle_negation",
    "RT1.C64_inc_negation",
    "RT1.C64_angle_counterexample",
    "RT1.C64_inc_counterexample"
   ],
   "note": "Check and sliders are proved (2D, 3D). That creation and events succeed is proved without interaction term, and with interaction term under conditions on the coefficients (2D and 3D). False for definitions that use an angle symbol (C64_angle_negation, C64_angle_counterexample), for a parameter named \"inc\" in 3D (C64_inc_negation, C64_inc_counterexample), and for range parameters if no slider affects tau or bsf (see C66). The 3D analyzer can only be created if some of the values to draw first are numbers and none is infinite (hypothesis of the 3D theorems; C85_blank is a model for which it raises). Missing: models with interaction term whose coefficients are supplied by the user."
  },
  {
   "property": "C65",
   "status": "partial",
   "theorems": [
    "RT1.C65_lines_partial",
    "RT1.C65_dashed_partial",
    "RT1.C65_switch_counterexample",
    "RT1.C65_sliders"
   ],
   "note": "Proved for all sessions in which int_Q is not assigned while the analyzer is open; with int_Q switched on in between the line labelled Volume shows surface + volume (C65_switch_counterexample). C65_sliders: after any session every slider shows the value it was last moved to, or its default."
  },
  {
   "property": "C66",
   "status": "partial",
   "theorems": [
    "RT1.C66_interaction_partial",
    "RT1.C66_bare_partial",
    "RT1.C66_overlay_partial",
    "RT1.C66_works_partial",
    "RT1.C66_omega_counterexample"
   ],
   "note": "Values: proved for surface and volume, for the total without interaction term, and for all four rows with interaction term where the optical depth is positive (C66_interaction_partial) or zero (C66_bare_partial). Drawing: proved if some parameter with a slider occurs in the definition of tau or bsf; false if only omega has a slider (sympy, C66_omega_counterexample). Missing: total and interaction of overlays that reach negative optical depths."
  },
  {
   "property": "C67",
   "status": "partial",
   "theorems": [
    "RT1.C67_partial",
    "RT1.C67_range",
    "RT1.C67_range_counterexample",
    "RT1.C67_moves_partial"
   ],
   "note": "Proved without range parameter. With one the object keeps arrays of 20 values for all parameters with sliders (C67_range, C67_range_counterexample). C67_moves_partial: the parameters of the object after a session, stated by the last move of each slider."
  },
  {
   "property": "C68",
   "status": "proved",
   "theorems": [
    "RT1.C68_surfaces",
    "RT1.C68_distance",
    "RT1.C68_sliders"
   ],
   "note": "For all sessions in which nobody else moves the angles of the object; the shape of the surfaces is that of the rows calc returns. C68_sliders: every slider shows the value it was last moved to."
  },
  {
   "property": "C69",
   "status": "proved",
   "theorems": [
    "RT1.C69_analyze",
    "RT1.C69_event",
    "RT1.C69_geometry",
    "RT1.C69_analyze3d",
    "RT1.C69_slide3d"
   ],
   "note": ""
  },
  {
   "property": "C70",
   "status": "partial",
   "theorems": [
    "RT1.C70_columns_partial",
    "RT1.C70_object_columns_partial",
    "RT1.C70_list_negation",
    "RT1.C70_list_counterexample",
    "RT1.C70_converges_partial",
    "RT1.C70_object_partial",
    "RT1.C70_simpson_partial",
    "RT1.C70_simpson_even_partial",
    "RT1.C70_warning",
    "RT1.C70_azimuth_negation",
    "RT1.C70_predefined_partial",
    "RT1.C70_nadir",
    "RT1.C70_azimuth_counterexample"
   ],
   "note": "Proved for phase functions that are continuous in the exit direction and parameters given as numbers or as arrays of shape (m, 1, 1) (C70_columns_partial, C70_object_columns_partial), for both variants of Simpson's rule in scipy before 1.14: the limit (C70_converges_partial), and the exact value for 3 and more points (C70_simpson_partial, C70_simpson_even_partial). False with sympy for surface functions that do not use the azimuth, e.g. Isotropic (C70_azimuth_negation, C70_azimuth_counterexample). With an object, the parameters of the surface function must be given again. One-dimensional arrays raise ValueError (C70_list_negation, C70_list_counterexample). Missing: arrays of other shapes. A column of values of NormBRDF: C88_norms_partial."
  },
  {
   "property": "C71",
   "status": "partial",
   "theorems": [
    "RT1.C71_arrays",
    "RT1.C71_arrays_succeed_partial",
    "RT1.C71_arrays_negation",
    "RT1.C71_arrays_counterexample",
    "RT1.C71_draws",
    "RT1.C71_missing",
    "RT1.C71_succeeds_partial",
    "RT1.C71_picture_volume",
    "RT1.C71_picture_surface",
    "RT1.C71_dashed_exact",
    "RT1.C71_dashed_converges",
    "RT1.C71_isotropic_negation",
    "RT1.C71_isotropic_counterexample",
    "RT1.C71_nested_counterexample"
   ],
   "note": "Contents of the plot and the check are proved for parameters given as numbers or arrays with finite elements (C71_draws, C71_arrays); an array is accepted exactly if it has one element or one per drawn direction (C71_arrays_succeed_partial, C71_arrays_negation). The plot fails with sympy for functions that do not use the exit angle, e.g. Isotropic (C71_isotropic_negation, C71_isotropic_counterexample), and for nested combinations (C71_nested_counterexample). Whether sympy keeps the exit angle in the simplified expansion is a parameter of the model. Missing: arrays for parameters that do not occur in the function (sympy ignores them, the model of the dashed line does not)."
  },
  {
   "property": "C72",
   "status": "partial",
   "theorems": [
    "RT1.C72_level_partial",
    "RT1.C72_notset_negation",
    "RT1.C72_notset_counterexample",
    "RT1.C72_unknown_level",
    "RT1.C72_short_names",
    "RT1.C72_format_string",
    "RT1.C72_format_kept",
    "RT1.C72_format_negation",
    "RT1.C72_basic_counterexample"
   ],
   "note": "Proved for all sequences of calls and levels other than 0, and for all format strings with a field %(name)s. False for \"notset\", where the level of the root logger decides (C72_notset_negation, C72_notset_counterexample), and for the documented short name \"basic\", which does not exist (C72_format_negation, C72_basic_counterexample)."
  },
  {
   "property": "C73",
   "status": "partial",
   "theorems": [
    "RT1.C73_exact_partial",
    "RT1.C73_takes_effect_partial",
    "RT1.C73_no_effect_partial",
    "RT1.C73_counterexample",
    "RT1.C73_interaction_partial",
    "RT1.C73_calc_partial",
    "RT1.C73_interaction_repeat_partial",
    "RT1.C73_interaction_effect_partial"
   ],
   "note": "False in general: a phase function that has been compiled keeps its backend (C73_no_effect_partial, C73_counterexample). Exact for surface and volume: a call behaves as if the backend with which the phase function was compiled had been selected from the start (C73_exact_partial); for functions not compiled before, that is the selected one (C73_takes_effect_partial). In the model two scattering objects with equal definitions share compiled functions. Exact for the interaction term: it runs with the backend that was set when its coefficients were compiled, the current one otherwise (C73_interaction_partial), so repeated calls are not affected by switching (C73_interaction_repeat_partial) and coefficients not yet compiled use the selected backend (C73_interaction_effect_partial). Exact for calc while at most 126 phase functions have been compiled, or if both phase functions run with the selected backend (C73_calc_partial). jacobian: only the bounds of C17_switching_*."
  },
  {
   "property": "C74",
   "status": "partial",
   "theorems": [
    "RT1.C74_first_order",
    "RT1.C74_interaction_partial",
    "RT1.C74_predefined",
    "RT1.C74_isotropic_partial",
    "RT1.C74_hg_surface_amplifies",
    "RT1.C74_fixed_partial",
    "RT1.C74_limit_partial",
    "RT1.C74_truncated_partial",
    "RT1.C74_predefined_limit_partial",
    "RT1.C74_nadir_negation"
   ],
   "note": "Without interaction term: for all continuous, non-negative, reciprocal functions with a normalised phase function (C74_first_order), in particular the predefined ones with default a (C74_predefined: NormBRDF <= 1, HenyeyGreenstein surface NormBRDF <= 1/4, HG_nadirnorm not included). Linear combinations and user defined functions are covered by C74_first_order if they meet its hypotheses. With interaction term (linear units, bistatic, no fixed angles, tau > 0, t_0 > 0): functions equal to their Legendre expansions, surface function invariant under turning both directions by pi and one of them by 2 pi (C74_interaction_partial; Isotropic or Rayleigh above Isotropic in C74_isotropic_partial). For other functions the coded interaction term uses truncated expansions: the balance holds in the limit of growing numbers of coefficients (C74_limit_partial, for the predefined functions C74_predefined_limit_partial), and for any given numbers the incoming energy is exceeded at most by an explicit multiple of the truncation errors (C74_truncated_partial). At nadir with interaction term the totals are nan in all directions (C74_nadir_negation). With fixed angles: Isotropic above Isotropic (C74_fixed_partial). Missing: fixed angles with interaction for functions that depend on the angles (the coded term keeps fixed angles along the reverse path, C32). The HenyeyGreenstein surface itself can reflect more than comes in (C74_hg_surface_amplifies)."
  },
  {
   "property": "C75",
   "status": "partial",
   "theorems": [
    "RT1.C75_monostatic",
    "RT1.C75_bistatic_partial",
    "RT1.C75_total",
    "RT1.C75_total_bistatic_partial",
    "RT1.C75_fixed_partial",
    "RT1.C75_total_fixed_partial",
    "RT1.C75_nonneg"
   ],
   "note": "Monostatic objects: proved for predefined functions (|a_i| <= 1, |t| < 1, tau > 0, oblique directions) and linear combinations of them, for interaction(), the fourth and the first row of calc() (C75_monostatic, C75_total, C75_nonneg). CosineLobe(0) is excluded (its series converges to another value in the plane of right scattering angles, C42). Bistatic without fixed angles: the limit is the integral with the exit azimuth of the surface function shifted by pi (C75_bistatic_partial, C75_total_bistatic_partial), which is the defect of C36. In dB the limit must be positive. Bistatic with fixed angles: the limit is the same integral in which, in addition, fixed angles keep their values along the reverse path (C75_fixed_partial, C75_total_fixed_partial). Nested linear combinations and user defined functions are not treated."
  },
  {
   "property": "C76",
   "status": "proved",
   "theorems": [
    "RT1.C76_omega",
    "RT1.C76_norm",
    "RT1.C76_tau",
    "RT1.C76_bsf",
    "RT1.C76_omega_interaction",
    "RT1.C76_norm_interaction",
    "RT1.C76_volume_pair",
    "RT1.C76_surface_pair",
    "RT1.C76_single_counterexample",
    "RT1.C76_bsf_interaction",
    "RT1.C76_tau_counterexample"
   ],
   "note": "C76_omega, C76_norm, C76_tau, C76_bsf: without interaction term; C76_omega_interaction, C76_norm_interaction: with it, for scattering functions whose expansions are not negative along the paths (NonnegAt); C76_bsf_interaction: with it, any scattering functions. C76_tau_counterexample: with the interaction term two canopies of different optical depth give the same total (isotropic functions, in all units). C76_volume_pair and C76_surface_pair (bsf = 0) need two different sums of the inverse cosines; C76_single_counterexample shows that one geometry is not enough. The other values (scattering functions included) must not depend on the varied parameter."
  },
  {
   "property": "C77",
   "status": "partial",
   "theorems": [
    "RT1.C77_reader",
    "RT1.C77_unique",
    "RT1.C77_merge_partial",
    "RT1.C77_inherited_partial",
    "RT1.C77_references_negation",
    "RT1.C77_references_counterexample"
   ],
   "note": "C77_reader: the reader finds what a text says; C77_unique: a text says one thing only; C77_merge_partial, C77_inherited_partial: the merged text says what is said together, without condition on the merged text if the other docstrings have no text sections (as in the code base). False for docstrings with a References or Examples section to be merged: nothing is merged (C77_references_negation, C77_references_counterexample). Not covered: See Also and index sections, signature lines, sections with unknown titles."
  },
  {
   "property": "C78",
   "status": "partial",
   "theorems": [
    "RT1.C78_error",
    "RT1.C78_error_dB",
    "RT1.C78_total",
    "RT1.C78_exact",
    "RT1.C78_bistatic_partial",
    "RT1.C78_fixed_partial",
    "RT1.C78_total_bistatic_partial"
   ],
   "note": "C78_error, C78_total, C78_exact, C78_error_dB: monostatic objects, |a_i| <= 1, |t| < 1, tau > 0, oblique directions, at least two coefficients (HG_nadirnorm: t and a[0] nonzero). C78_bistatic_partial: bistatic objects without fixed angles, with respect to the contribution with the exit azimuth shifted by pi (the documented value is missed, C36). C78_fixed_partial, C78_total_bistatic_partial: bistatic objects with fixed angles and the total, with respect to the contribution in which, in addition, fixed angles keep their values along the reverse path. C78_error_dB needs an error smaller than the contribution."
  },
  {
   "property": "C79",
   "status": "proved",
   "theorems": [
    "RT1.C79_first_order",
    "RT1.C79_interaction",
    "RT1.C79_limit",
    "RT1.C79_limit_first_order",
    "RT1.C79_hidden"
   ],
   "note": "C79_first_order, C79_limit_first_order: without interaction term, any scattering functions; C79_interaction, C79_limit, C79_hidden: with interaction term, every geometry mode, oblique directions. The scattering functions must not change with tau."
  },
  {
   "property": "C80",
   "status": "proved",
   "theorems": [
    "RT1.C80_surface",
    "RT1.C80_volume",
    "RT1.C80_first_order",
    "RT1.C80_interaction",
    "RT1.C80_total",
    "RT1.C80_nadir",
    "RT1.C80_bare",
    "RT1.C80_no_jump",
    "RT1.C80_thin",
    "RT1.C80_thin_first_order",
    "RT1.C80_between"
   ],
   "note": "C80_surface, C80_volume, C80_first_order: any scattering functions with convergent values; C80_interaction, C80_total: oblique directions, tau > 0, every geometry mode, |a_i| <= 1, |t| < 1 (HG_nadirnorm: t and a[0] nonzero). C80_nadir: the limit is the documented contribution at nadir where interaction() itself returns nan (C38). C80_bare, C80_no_jump: calc() at tau = 0 returns the limit. C80_thin, C80_thin_first_order, C80_between: linear units; C80_thin for the functions of C78."
  },
  {
   "property": "C81",
   "status": "partial",
   "theorems": [
    "RT1.C81_settings",
    "RT1.C81_settings_partial",
    "RT1.C81_inserted",
    "RT1.C81_inserted_partial",
    "RT1.C81_again",
    "RT1.C81_jacobian",
    "RT1.C81_inserted_jacobian",
    "RT1.C81_jacobian_partial",
    "RT1.C81_counterexample"
   ],
   "note": "Full claim for surface, volume, getters, calc with int_Q=False (C81_settings, C81_inserted; R.V and R.SRF may be assigned in the program) and jacobian with respect to omega, tau, NormBRDF, bsf in every format (C81_jacobian, C81_inserted_jacobian). C81_again: the full claim for interaction and calc with int_Q=True directly after the inserted calls, values only for names that are known already. Anywhere in a program the interaction term is only shown to be the same whenever both programs succeed (C81_inserted_partial); likewise derivatives with respect to other names with sympy (C81_jacobian_partial). Missing because false: interaction() with int_Q=False succeeds only if it has been evaluated before (C81_counterexample); a new name after an evaluation (C12_counterexample)."
  },
  {
   "property": "C82",
   "status": "partial",
   "theorems": [
    "RT1.C82_settings",
    "RT1.C82_answers",
    "RT1.C82_trace",
    "RT1.C82_answers_partial",
    "RT1.C82_counterexample",
    "RT1.C82_trace_interaction",
    "RT1.C82_interaction_exact",
    "RT1.C82_total_exact"
   ],
   "note": "C82_settings: after every program (all calls, also assignments of R.V, R.SRF and arrays changed in place) the settings of all objects are those of the records. C82_answers: after any program without arrays changed in place, every call except interaction, calc with int_Q=True and derivatives with respect to symbols of the user returns exactly what the records return. C82_trace: a whole program that never switches the interaction term on has the same list of answers as the records. C82_answers_partial: with interaction term, and for derivatives with respect to other names with sympy, without assignments to R.V and R.SRF, a call that returns something returns what the records return. C82_trace_interaction: the exact list of answers with interaction term, for programs without assignments to R.V, R.SRF and arrays changed in place and with derivatives with respect to omega, tau, NormBRDF, bsf only: that of records which remember, beside the settings, the names of the parameters known when the coefficients were compiled (Spec/Remembered.lean says which calls compile and forget them). C82_interaction_exact: interaction returns exactly what the plain record returns if these names are those of the parameters known now, otherwise it raises; C82_total_exact: the same for calc. Missing because false: the object may raise where the records answer (C82_counterexample), and after an assignment to R.V or R.SRF it may answer with the coefficients of the old functions (C14_counterexample). Programs refer to objects that exist (Sound)."
  },
  {
   "property": "C83",
   "status": "partial",
   "theorems": [
    "RT1.C83_takes_effect_partial",
    "RT1.C83_first_negation",
    "RT1.C83_moment",
    "RT1.C83_constant",
    "RT1.C83_expansion_partial",
    "RT1.C83_counterexample",
    "RT1.C83_expansion_counterexample"
   ],
   "note": "C83_takes_effect_partial: calc with parameter names that have not been used with this function before returns the value for the current attributes of the function and its parts. C83_moment: every evaluation returns the value for the attributes (and backend) at the present moment or at an earlier evaluation of this function with the same names. C83_constant: without assignments and changes of the backend, full claim for values, for every program. C83_expansion_partial: the expansion follows all assignments, unless a of a part of a linear combination is assigned in the program. Missing because false: C83_first_negation (for names used before, the value is always that of the attributes at the first evaluation with these names, until 128 other functions have been compiled), C83_counterexample, C83_expansion_counterexample (a combination groups its parts by a when it is created). Attributes t and i hold an expression, a number, an integer; assigning V or SRF of a combination (its parts as a whole) and ncoefs is not modelled. RT1 objects are not part of these programs."
  },
  {
   "property": "C84",
   "status": "partial",
   "theorems": [
    "RT1.C84_keywords",
    "RT1.C84_keywords_first_order",
    "RT1.C84_settings",
    "RT1.C84_split",
    "RT1.C84_angles",
    "RT1.C84_angles_counterexample",
    "RT1.C84_supplied_counterexample"
   ],
   "note": "C84_keywords: for programs without fnevals_input, without assignments to R.V, R.SRF and arrays changed in place and with derivatives with respect to omega, tau, NormBRDF, bsf only, the list of everything the calls return does not depend on the order of the keywords of update_params, calc, surface, volume, interaction. C84_keywords_first_order: the same without interaction term, also with fnevals_input and with assignments to R.V and R.SRF. C84_settings: consecutive setters of different settings or objects may be called in any order, with or without interaction term, also with fnevals_input: each returns the same (or raises the same exception) and so does every later call. C84_split: update_params in one call or in two. C84_angles: the keywords of set_geometry in another order: the call returns the same or raises the same exception, and if it returns then every later call returns the same. Missing because false: a call of set_geometry that raises leaves those angles set that come before the refused one, so that later evaluations depend on the order (C84_angles_counterexample); with fnevals_input the values of the parameters are passed by position in the order in which they were first set, so that the order of keywords changes the interaction term (C84_supplied_counterexample)."
  },
  {
   "property": "C85",
   "status": "partial",
   "theorems": [
    "RT1.C85_limits",
    "RT1.C85_visible",
    "RT1.C85_blank",
    "RT1.C85_tall",
    "RT1.C85_rays",
    "RT1.C85_specular",
    "RT1.C85_backscatter"
   ],
   "note": "C85_limits: the axes of every 3D analyzer that could be created extend from -L to L with L the largest absolute horizontal coordinate of the drawn points. C85_rays: after every session (as in C68) the ends of both lines, as long as the largest absolute height, if the rows to draw contain a number and no infinity. C85_specular, C85_backscatter: the lobes of the Henyey-Greenstein functions with the default scattering angle, at all sites and for all t between -1 and 1 (surface: 0 < t). C85_visible: an analyzer that could be created has some number to draw. Missing because false: the heights are not taken into account for the limits (C85_tall: the top of an isotropic surface is always outside of the axes); the creation raises ValueError if the values to draw are all nan (C85_blank) or some is infinite. That finite values suffice is part of C64. Ground plane, colours and labels: C96."
  },
  {
   "property": "C86",
   "status": "partial",
   "theorems": [
    "RT1.C86_accepts",
    "RT1.C86_value",
    "RT1.C86_keywords",
    "RT1.C86_errors",
    "RT1.C86_lin_accepts",
    "RT1.C86_lin_value",
    "RT1.C86_range_counterexample",
    "RT1.C86_ncoefs_counterexample",
    "RT1.C86_mixed_counterexample",
    "RT1.C86_lin_errors"
   ],
   "note": "C86_accepts, C86_lin_accepts: exactly which argument lists the constructors accept (any number, order and type of arguments; sp.parse_expr is a parameter of the model, any function from strings to expressions or exceptions). C86_errors: which exception the predefined classes raise otherwise. C86_keywords: the order of keywords matters neither for the object nor for the exception. C86_value: with documented arguments the object has the requested number of coefficients and calc returns the textbook value (for -1 < t < 1 and |a| at most 1). C86_lin_value: combinations of already constructed functions. Missing because false: the range of t is not checked (C86_range_counterexample), nor is ncoefs (C86_ncoefs_counterexample), True is accepted as power of the cosine lobe, strings of three characters as a; linear combinations accept surface functions as parts of volume functions and ignore ncoefs (C86_mixed_counterexample). C86_lin_errors: the reason for every exception of LinComb."
  },
  {
   "property": "C87",
   "status": "partial",
   "theorems": [
    "RT1.C87_matrix_partial"
   ],
   "note": "Success of all calls, layout and values of the whole matrix, compared with the totals that calc returns when one fitted number is changed; omega, NormBRDF and bsf defined by their names, and with symengine other names used at most once in surface and volume. Missing because false in the code: tau (C50_counterexample), names used for tau or several times (C52_counterexample), linear sigma0 units with I0 other than 1 (C51_counterexample), angles that are broadcast (C53_counterexample)."
  },
  {
   "property": "C88",
   "status": "partial",
   "theorems": [
    "RT1.C88_curve",
    "RT1.C88_empty",
    "RT1.C88_nan",
    "RT1.C88_norms_partial",
    "RT1.C88_cut_negation",
    "RT1.C88_cut_counterexample",
    "RT1.C88_columns_negation",
    "RT1.C88_columns_counterexample",
    "RT1.C88_transposed_negation"
   ],
   "note": "Proved for one number per incidence angle (C88_curve) and for a column of values of NormBRDF of an object (C88_norms_partial: lines and labels; visibility of the last row, of the others only if no NormBRDF exceeds the last one). False otherwise: the upper limit of the axis is computed from the last row only, so lines with a NormBRDF more than 10 % larger are cut off (C88_cut_negation, C88_cut_counterexample). No figure without incidence angles or with nan (C88_empty, C88_nan). False for parameters of the surface function given as arrays of shape (m, 1, 1): the rows are taken for values of NormBRDF, so the figure raises, or shows transposed lines if m is the number of incidence angles (C88_columns_negation, C88_columns_counterexample, C88_transposed_negation). Missing: arrays of NormBRDF in param_dict."
  },
  {
   "property": "C89",
   "status": "partial",
   "theorems": [
    "RT1.C89_names_partial",
    "RT1.C89_clash_negation",
    "RT1.C89_clash_counterexample"
   ],
   "note": "Proved for names other than the 37 names that functions of the module look up (C89_names_partial: objects and results are those of the model without the effect of sp.var). False for the others: after the interaction term of one object with a parameter of such a name has been evaluated, all later calls that need the name raise, for all objects (C89_clash_negation, C89_clash_counterexample; for 14 of the names calls that need them for sure are listed in Op.needs: np, sp, isinstance, str, int, dict, set, type, ...). Missing: effects of the remaining names, which only some executions look up."
  },
  {
   "property": "C90",
   "status": "partial",
   "theorems": [
    "RT1.C90_constants",
    "RT1.C90_text_partial",
    "RT1.C90_names_negation",
    "RT1.C90_counterexample",
    "RT1.C90_function_constants",
    "RT1.C90_function_partial",
    "RT1.C90_weights"
   ],
   "note": "Proved for formulas none of whose names sympy (or a python builtin function) defines, and for N, which the package protects (C90_text_partial); with names of sympy's real numbers (pi, E) the formula is evaluated with these numbers (C90_constants). The same for parameters of scattering functions (C90_function_constants, C90_function_partial, no roots of 0) and weights of linear combinations (C90_weights). False for such names: after R.tau = \"E\" the value supplied for E is ignored without a message (C90_names_negation, C90_counterexample). The syntax tree of the text is given (python's parser is not modelled), exponents are numbers, functions are sin, cos, exp, sqrt, sign. Missing: names that sympy defines as anything else (I, S, Q, beta, ...), which raise exceptions of sympy or give complex numbers."
  },
  {
   "property": "C91",
   "status": "partial",
   "theorems": [
    "RT1.C91_calc",
    "RT1.C91_hemreflect",
    "RT1.C91_expansion_partial",
    "RT1.C91_index_partial",
    "RT1.C91_index_counterexample",
    "RT1.C91_index_negation"
   ],
   "note": "Proved for calc and hemreflect (C91_calc, C91_hemreflect). False for the expansion: the sum over the symbol n also replaces a parameter called n (C91_index_counterexample, C91_index_negation; HenyeyGreenstein(t=\"n\") is expanded to a sum that does not depend on the parameter). The expansion is proved for all other names (C91_expansion_partial), and to be the one used in the other claims (C91_index_partial)."
  },
  {
   "property": "C92",
   "status": "partial",
   "theorems": [
    "RT1.C92_objects",
    "RT1.C92_interaction_partial",
    "RT1.C92_interaction_values_partial",
    "RT1.C92_jacobian_partial"
   ],
   "note": "Proved for surface, volume, the parameters and calc without interaction term, exceptions included (C92_objects). With interaction term: the same outcomes if no coefficients are remembered from earlier evaluations (C92_interaction_partial), the same arrays in any states in which both evaluations succeed (C92_interaction_values_partial); remembered coefficients are discussed in C32. The names n, theta_s and phi_s are excluded there because the model of the expansion in Model/Scatter.lean and Model/Fn.lean does not represent the capture of these symbols (defect 51); the hypothesis PlainNames is not used in the proof and only keeps the claim within what is modelled. jacobian: the same derivatives if both calls succeed, sympy backend (C92_jacobian_partial; the successes are those of the memo-free evaluation, whose outcomes correspond exactly)."
  },
  {
   "property": "C93",
   "status": "proved",
   "theorems": [
    "RT1.C93_arguments",
    "RT1.C93_polarplot",
    "RT1.C93_polarplot_drawn",
    "RT1.C93_polarplot_positional",
    "RT1.C93_polarplot_other",
    "RT1.C93_hemreflect",
    "RT1.C93_hemreflect_evaluated",
    "RT1.C93_hemreflect_volume",
    "RT1.C93_analyze",
    "RT1.C93_analyze3d",
    "RT1.C93_analyze_rejected",
    "RT1.C93_analyze_names_negation",
    "RT1.C93_analyze3d_names_negation",
    "RT1.C93_names_counterexample",
    "RT1.C93_unavailable"
   ],
   "note": "Python's assignment of arguments to parameters and functools.partial are modelled (Sig.bind, mergeKw) and characterised by C93_arguments. C93_polarplot_positional, C93_hemreflect_evaluated and the *_names_negation theorems state where the methods do not do what one may expect (defects 52, 53). Simplified: arguments of the analyzers of a wrong type raise before the geometry of the object is set; range overlays and drawing are C64-C68."
  },
  {
   "property": "C94",
   "status": "partial",
   "theorems": [
    "RT1.C94_colours",
    "RT1.C94_distinct",
    "RT1.C94_legend",
    "RT1.C94_ground_title",
    "RT1.C94_ticks_partial",
    "RT1.C94_ticks_negation",
    "RT1.C94_ticks_counterexample"
   ],
   "note": "The statement about the ticks is false: the label of 135 degrees stands at 125 degrees (C94_ticks_negation, C94_ticks_counterexample; C94_ticks_partial for the other ticks). The rest is proved; that colours repeat from the eighth incidence angle on is part of C94_colours and C94_distinct. Not modelled: the text of the numbers, line widths, transparency, position of the legend, radial limits."
  },
  {
   "property": "C95",
   "status": "proved",
   "theorems": [
    "RT1.C95_places",
    "RT1.C95_sliders",
    "RT1.C95_sliders3d",
    "RT1.C95_active",
    "RT1.C95_click",
    "RT1.C95_none_negation",
    "RT1.C95_units"
   ],
   "note": "Exception: no button selects a parameter called \"None\" (C95_none_negation, excluded in C95_click). An empty range parameter counts as none (excluded in C95_active). The label is not changed when the units are switched while the analyzer is open. Sizes and distances are not modelled."
  },
  {
   "property": "C96",
   "status": "proved",
   "theorems": [
    "RT1.C96_content",
    "RT1.C96_failed",
    "RT1.C96_legend",
    "RT1.C96_identify",
    "RT1.C96_ground",
    "RT1.C96_reach",
    "RT1.C96_above"
   ],
   "note": "The sessions of C96_content, C96_failed, C96_legend and C96_ground allow any change of the RT1 objects between the callbacks; C96_above uses the sessions of C68 (other calls do not set angles). Limits and ground plane are those of the first picture, later surfaces may be larger. That the calculation can only raise before the first surface is drawn is read off the code. What matplotlib does with the arrays (rcount, ccount, alpha, nan) is not modelled."
  },
  {
   "property": "C97",
   "status": "partial",
   "theorems": [
    "RT1.C97_lines_partial",
    "RT1.C97_lines_interaction_partial",
    "RT1.C97_angles",
    "RT1.C97_surfaces_partial"
   ],
   "note": "C97_lines_partial: lines of the 2D analyzer without interaction term, for tau >= 0 and directions above the horizon (Site.Regular); C97_lines_interaction_partial: all lines with interaction term, for proper histories (ReachableP), fitting numbers of axes (Aligned), tau > 0, an object that is still monostatic. Both refer to the values that the getters report after calc() was called with the values of the sliders (with a selected range parameter the object itself holds the values of the overlay); int_Q is not assigned while the analyzer is open. C97_surfaces_partial refers to the values in the current state, angles are not assigned while the analyzer is open. Missing: the interaction row and the total with interaction term in the 3D analyzer: bistatic interaction contributions are not the documented ones (C36_bistatic_counterexample). C97_angles: the directions of the values in the lines (other calls do not set angles); that the abscissae of the lines are these angles in degrees (plot.py 458, 568) is read off the code."
  }
 ]
}
