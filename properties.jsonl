{"id": "C01", "title": "No stale cosines", "statement": "After any history of public calls on any number of RT1 objects (geometry changes, parameter changes, evaluations, failing calls), every evaluation uses the cosines of the incidence and exit angles that are currently set on that object.", "quantifier": "all finite histories of API calls on any number of objects, including calls that raise and caches that evict", "why_tests_cant": "the cosines are memoised in caches shared by all objects; a test can only try a few interleavings of set_geometry/set_monostatic/set_bistatic/calc", "anchors": ["src/rt1_model/_calc.py: RT1._mu_0, RT1._mu_ex, RT1._mu_0_x, RT1._mu_ex_x, RT1._clear_geom_cache, RT1.set_geometry, RT1.set_monostatic, RT1.set_bistatic"]}
{"id": "C02", "title": "Results follow R.t_0 even if the caller reuses the array", "statement": "If the caller later overwrites the contents of the array passed to set_geometry, an evaluation is consistent with the angle the object then reports as R.t_0 (it either keeps the old value or uses the new one everywhere).", "quantifier": "all arrays, all overwrites, all later evaluations", "why_tests_cant": "aliasing shows only for particular call orders (evaluate, overwrite, evaluate)", "anchors": ["src/rt1_model/_calc.py: RT1._sanitize_geometry_parameter, RT1._mu_0, RT1.set_geometry"]}
{"id": "C03", "title": "Monostatic relations", "statement": "While an object is in monostatic mode, R.t_ex equals R.t_0 and R.p_ex equals R.p_0 + pi (or reading them raises because the incidence angle was never set).", "quantifier": "all reachable states", "why_tests_cant": "must hold after every mode-switching history", "anchors": ["src/rt1_model/_calc.py: RT1.t_ex, RT1.p_ex, RT1.set_monostatic"]}
{"id": "C04", "title": "Fixed angles stay fixed", "statement": "An angle fixed by set_monostatic/set_bistatic keeps that value until the next set_monostatic/set_bistatic call; set_geometry on a fixed angle raises AssertionError and does not change it.", "quantifier": "all histories and all set_geometry calls", "why_tests_cant": "every keyword combination and order of calls matters", "anchors": ["src/rt1_model/_calc.py: RT1.set_bistatic, RT1.set_monostatic, RT1._sanitize_geometry_parameter, RT1.set_geometry"]}
{"id": "C05", "title": "Invalid set_geometry calls have no effect", "statement": "set_geometry with an unknown angle name raises TypeError, and with an exit angle in monostatic mode raises AssertionError; in both cases no angle of any object changes.", "quantifier": "all keyword sets and states", "why_tests_cant": "all keyword combinations and orders", "anchors": ["src/rt1_model/_calc.py: RT1.set_geometry"]}
{"id": "C06", "title": "Geometry setters are all-or-nothing", "statement": "If set_geometry, set_monostatic or set_bistatic raises, the object's geometry is what it was before the call.", "quantifier": "all calls that raise", "why_tests_cant": "atomicity is about every failing argument position", "anchors": ["src/rt1_model/_calc.py: RT1.set_geometry, RT1.set_monostatic, RT1.set_bistatic"]}
{"id": "C07", "title": "Parameter dictionary is a last-write-wins map", "statement": "After any sequence of update_params/calc/surface/volume/interaction calls, R.param_dict maps every name ever supplied to the last value supplied for it (as an at-least-1-d array), contains 'bsf' (default 0), and never drops or reorders names.", "quantifier": "all call sequences and keyword sets", "why_tests_cant": "unbounded histories", "anchors": ["src/rt1_model/_calc.py: RT1.update_params, RT1.calc, RT1.param_dict"]}
{"id": "C08", "title": "Parameter getters are never stale", "statement": "R.tau, R.omega, R.NormBRDF and R.bsf always equal the most recently assigned definition evaluated at the current parameter values.", "quantifier": "all histories over any number of objects", "why_tests_cant": "the compiled definitions are memoised per object and cleared on assignment", "anchors": ["src/rt1_model/_calc.py: RT1._get_param_funcs, RT1._get_param_symbs, RT1._eval_param, RT1._clear_param_cache, RT1.tau"]}
{"id": "C09", "title": "calc(**p) is update_params(**p) then calc()", "statement": "calc(**p) returns what update_params(**p) followed by calc() returns and leaves the same parameters; calling calc() again returns the same arrays.", "quantifier": "all reachable states and parameter sets", "why_tests_cant": "must hold for every state of the memo tables", "anchors": ["src/rt1_model/_calc.py: RT1.calc, RT1.update_params"]}
{"id": "C10", "title": "Objects do not influence each other", "statement": "Calls on one RT1 object never change the angles, parameters or evaluation results of another RT1 object.", "quantifier": "all interleavings of calls on any number of objects", "why_tests_cant": "the memo tables are class-level and shared by all instances", "anchors": ["src/rt1_model/_calc.py: RT1._clear_cache, RT1._mu_0, RT1._get_param_funcs"]}
{"id": "C11", "title": "Interaction uses each parameter's own value", "statement": "When the interaction term is evaluated, every symbol in the expansion coefficients is given the current value of the parameter with that name, independent of the order in which parameters were supplied or updated.", "quantifier": "all histories of parameter updates before and after the first evaluation", "why_tests_cant": "values are passed positionally to a function compiled for an earlier parameter dictionary", "anchors": ["src/rt1_model/_calc.py: RT1._fnevals, RT1._calc_Fint_1, RT1._calc_Fint_2, RT1.update_params"]}
{"id": "C12", "title": "Parameters may be added at any time", "statement": "After a successful evaluation, supplying a further (previously unknown) parameter name with update_params or calc does not make evaluation fail.", "quantifier": "all states after an evaluation, all new names", "why_tests_cant": "needs a history with a new name after the coefficients were compiled", "anchors": ["src/rt1_model/_calc.py: RT1._fnevals, RT1._calc_Fint_1, RT1._d_volume_dummy_lambda, RT1._d_surface_dummy_lambda"]}
{"id": "C13", "title": "Coefficients follow the geometry mode", "statement": "After set_monostatic/set_bistatic the interaction coefficients used are those of the newly selected mode and fixed angles, for any history.", "quantifier": "all histories of mode changes and evaluations", "why_tests_cant": "the coefficients are cached on the object", "anchors": ["src/rt1_model/_calc.py: RT1._fn, RT1._fnevals, RT1.set_monostatic, RT1.set_bistatic"]}
{"id": "C14", "title": "Replacing V or SRF takes effect", "statement": "After assigning a new scattering object to R.V or R.SRF, all results are those of the new object.", "quantifier": "all assignments and histories", "why_tests_cant": "needs assignment after a cached evaluation", "anchors": ["src/rt1_model/_calc.py: RT1._fn, RT1._mu_0_x"]}
{"id": "C15", "title": "Missing parameters are reported exactly", "statement": "If an evaluation fails because parameters of tau, omega, NormBRDF, bsf, V or SRF have no value, a TypeError is raised that names exactly the missing ones.", "quantifier": "all model definitions and parameter dictionaries", "why_tests_cant": "all subsets of missing names", "anchors": ["src/rt1_model/_calc.py: RT1.calc, RT1._eval_param, RT1._all_param_symbs"]}
{"id": "C16", "title": "Pickling preserves behaviour", "statement": "Pickling an RT1 object leaves the object usable exactly as before, and the unpickled object computes the same results.", "quantifier": "all reachable states", "why_tests_cant": "state after arbitrary histories, including the object that was pickled", "anchors": ["src/rt1_model/_calc.py: RT1.__getstate__"]}
{"id": "C17", "title": "Backend choice does not change values", "statement": "For the same model and inputs, the sympy and symengine backends return the same arrays; set_lambda_backend rejects any other name and then leaves the backend unchanged.", "quantifier": "all models, inputs and histories", "why_tests_cant": "all shapes and definitions", "anchors": ["src/rt1_model/__init__.py: set_lambda_backend, get_lambda_backend", "src/rt1_model/helpers.py: _lambdify"]}
{"id": "C18", "title": "Surface contribution", "statement": "The linear surface contribution is NormBRDF*((1-bsf)*exp(-tau/cos t_0 - tau/cos t_ex) + bsf) * I0 * cos t_0 * BRDF(t_0,t_ex,p_0,p_ex).", "quantifier": "all angles, parameters and intensities", "why_tests_cant": "continuous domain", "anchors": ["src/rt1_model/_calc.py: RT1._surface, RT1.surface"]}
{"id": "C19", "title": "Volume contribution", "statement": "The linear volume contribution is (1-bsf) * I0 * omega * cos t_0/(cos t_0+cos t_ex) * (1-exp(-tau/cos t_0)exp(-tau/cos t_ex)) * p(t_0,t_ex,p_0,p_ex).", "quantifier": "all angles, parameters and intensities", "why_tests_cant": "continuous domain", "anchors": ["src/rt1_model/_calc.py: RT1._volume, RT1.volume"]}
{"id": "C20", "title": "Total is the sum of the contributions", "statement": "In linear units the first row of calc() is the sum of the other rows; in dB it is 10*log10 of the sum of 10^(row/10); with int_Q=False exactly total, surface, volume are returned and the total excludes the interaction term.", "quantifier": "all models, inputs and unit settings", "why_tests_cant": "all inputs and flag combinations", "anchors": ["src/rt1_model/_calc.py: RT1.calc, RT1._convert_sig0_db"]}
{"id": "C21", "title": "No vegetation (tau = 0)", "statement": "For tau = 0 the volume and interaction contributions are 0 and the surface contribution is the bare-soil one, element by element, whether tau is a number or an array.", "quantifier": "all arrays of optical depths and angles", "why_tests_cant": "NaN replacement depends on the whole array, not on one element", "anchors": ["src/rt1_model/_calc.py: RT1.calc"]}
{"id": "C22", "title": "Bare-soil fraction is a linear mixture", "statement": "Each linear contribution is affine in bsf; for bsf = 1 only the unattenuated surface remains and for bsf = 0 only the vegetated contributions.", "quantifier": "all bsf and other inputs", "why_tests_cant": "continuous domain", "anchors": ["src/rt1_model/_calc.py: RT1._surface, RT1._volume, RT1._interaction"]}
{"id": "C23", "title": "Linearity in omega and NormBRDF", "statement": "Volume and interaction are proportional to omega, surface and interaction are proportional to NormBRDF, and surface (volume) does not depend on omega (NormBRDF).", "quantifier": "all inputs", "why_tests_cant": "continuous domain", "anchors": ["src/rt1_model/_calc.py: RT1._surface, RT1._volume, RT1._interaction"]}
{"id": "C24", "title": "Units: sigma0 does not depend on I0", "statement": "With sig0=True every returned contribution is independent of the (non-zero) incident intensity; with sig0=False it is proportional to it; sigma0 is 4*pi*cos(t_0)/I0 times the intensity.", "quantifier": "all non-zero I0", "why_tests_cant": "continuous domain", "anchors": ["src/rt1_model/_calc.py: RT1._convert_sig0_db"]}
{"id": "C25", "title": "Decibel conversion", "statement": "With dB=True each value is 10*log10 of the linear value (exact inverse 10^(x/10)), order preserving, -inf for 0 and NaN for negative values.", "quantifier": "all linear values", "why_tests_cant": "continuous domain and special values", "anchors": ["src/rt1_model/_calc.py: RT1._convert_sig0_db"]}
{"id": "C26", "title": "Contributions are physical: non-negative and bounded", "statement": "For 0<=bsf<=1, omega>=0, tau>=0, NormBRDF>=0 and angles in [0,pi/2) surface and volume are >= 0; surface never exceeds the bare-soil value and volume never exceeds its infinite-depth value.", "quantifier": "the whole physical parameter domain", "why_tests_cant": "continuous domain", "anchors": ["src/rt1_model/_calc.py: RT1._surface, RT1._volume"]}
{"id": "C27", "title": "Monotone in optical depth", "statement": "For physical parameters, the surface contribution does not increase and the volume contribution does not decrease when tau grows, and they converge to the bare-soil part and the infinite-depth value.", "quantifier": "all pairs of optical depths", "why_tests_cant": "continuous domain, limits", "anchors": ["src/rt1_model/_calc.py: RT1._surface, RT1._volume"]}
{"id": "C28", "title": "Reciprocity", "statement": "Exchanging incidence and exit directions multiplies each linear contribution (intensity) by cos t_ex / cos t_0.", "quantifier": "all geometries (bistatic) and models", "why_tests_cant": "continuous domain, all models", "anchors": ["src/rt1_model/_calc.py: RT1._surface, RT1._volume, RT1._interaction, RT1._calc_Fint_1, RT1._calc_Fint_2"]}
{"id": "C29", "title": "Azimuthal symmetry", "statement": "If a[1]==a[2] for V and SRF, results depend on the azimuth angles only through their difference; monostatic results do not depend on p_0.", "quantifier": "all azimuths, all models with a[1]==a[2]", "why_tests_cant": "continuous domain", "anchors": ["src/rt1_model/_scatter.py: _Scatter.calc_scattering_angle", "src/rt1_model/_calc.py: RT1.set_monostatic"]}
{"id": "C30", "title": "Scattering angle is a cosine", "statement": "calc_scattering_angle is symmetric under exchange of the directions, equals the spherical-geometry formula for the default a, and lies in [-1,1] whenever all |a_i| <= 1.", "quantifier": "all angles and parameters a", "why_tests_cant": "continuous domain", "anchors": ["src/rt1_model/_scatter.py: _Scatter.calc_scattering_angle"]}
{"id": "C31", "title": "Monostatic is the special case of bistatic", "statement": "Evaluating in bistatic mode with t_ex=t_0, p_ex=p_0+pi gives the same contributions as monostatic mode.", "quantifier": "all models, angles and parameters", "why_tests_cant": "all models; the shipped tests only use isotropic surfaces", "anchors": ["src/rt1_model/_calc.py: RT1.set_monostatic, RT1.set_bistatic, RT1._calc_interaction_expansion"]}
{"id": "C32", "title": "Fixing angles does not change results", "statement": "Passing an angle as fixed value to set_monostatic/set_bistatic gives the same contributions as passing the same value through set_geometry.", "quantifier": "all subsets of fixed angles, all models", "why_tests_cant": "all models and subsets", "anchors": ["src/rt1_model/_calc.py: RT1.set_bistatic, RT1.set_monostatic, RT1._calc_Fint_2, RT1._calc_interaction_expansion"]}
{"id": "C33", "title": "fn-coefficients solve their defining equation", "statement": "The coefficients f_n satisfy sum_n f_n cos(theta)^n = int_0^{2pi} p(theta_0,phi_0,theta,phi) BRDF(theta,phi,theta_ex,phi_ex') dphi for the truncated Legendre expansions of V and SRF, for every theta (phi_ex' is the exit azimuth given to the expansion).", "quantifier": "all numbers of coefficients, all expansion coefficients, all angles", "why_tests_cant": "unbounded number of coefficients; identity of functions", "anchors": ["src/rt1_model/_calc.py: RT1._calc_interaction_expansion, RT1._integrate_0_2pi_phis, RT1._extract_coefficients, RT1._cosintegral"]}
{"id": "C34", "title": "Azimuth integrals of cosine powers", "statement": "_cosintegral(i) is the mean of cos^i over a full period for every power i.", "quantifier": "all natural i", "why_tests_cant": "unbounded i", "anchors": ["src/rt1_model/_calc.py: RT1._cosintegral"]}
{"id": "C35", "title": "Closed form of the polar integral", "statement": "For 0<cos t<1 and tau>0 the closed form used for F_int equals the defining integral over the upper hemisphere, for every power n.", "quantifier": "all tau>0, all angles, all n", "why_tests_cant": "unbounded n, improper integrals", "anchors": ["src/rt1_model/_calc.py: RT1._S2_mu, RT1._calc_Fint_1, RT1._mu_0_x"]}
{"id": "C36", "title": "Interaction contribution equals its defining double integral", "statement": "The returned linear interaction contribution equals NormBRDF*(1-bsf)*I0*cos t_0*omega*(exp(-tau/cos t_ex)*F_int(0->ex)+exp(-tau/cos t_0)*F_int(ex->0)) with F_int the documented double integral of the truncated expansions.", "quantifier": "all models, angles in (0,pi/2), tau>0", "why_tests_cant": "identity of analytic functions for unbounded numbers of coefficients", "anchors": ["src/rt1_model/_calc.py: RT1._interaction, RT1._calc_Fint_1, RT1._calc_Fint_2"]}
{"id": "C37", "title": "Interaction is non-negative for non-negative expansions", "statement": "If the truncated expansions of V and SRF are non-negative, the interaction contribution is non-negative for physical parameters.", "quantifier": "all models with non-negative expansions", "why_tests_cant": "continuous domain", "anchors": ["src/rt1_model/_calc.py: RT1._interaction"]}
{"id": "C38", "title": "Evaluation yields finite numbers", "statement": "For physical parameters with tau>0 and incidence/exit angles in [0,pi/2), all linear contributions are finite numbers.", "quantifier": "all physical inputs including nadir", "why_tests_cant": "special points of a continuous domain", "anchors": ["src/rt1_model/_calc.py: RT1._S2_mu, RT1.calc"]}
{"id": "C39", "title": "Volume phase functions are normalised", "statement": "Isotropic, Rayleigh, HenyeyGreenstein and HGRayleigh integrate to 1 over the unit sphere of exit directions (default a, |t|<1).", "quantifier": "all t and incidence directions", "why_tests_cant": "integrals over a continuous domain", "anchors": ["src/rt1_model/volume.py: Isotropic, Rayleigh, HenyeyGreenstein, HGRayleigh"]}
{"id": "C40", "title": "Hemispherical reflectances", "statement": "surface.Isotropic has hemispherical reflectance 1 for every incidence direction; HG_nadirnorm has reflectance 1 at nadir incidence for every admissible t and a[0]; CosineLobe(i) has 2/(i+2) at nadir.", "quantifier": "all t, a[0], i, incidence directions", "why_tests_cant": "integrals over a continuous domain", "anchors": ["src/rt1_model/surface.py: Isotropic, HG_nadirnorm, CosineLobe", "src/rt1_model/plot.py: hemreflect"]}
{"id": "C41", "title": "Exact Legendre expansions", "statement": "For Isotropic and Rayleigh the Legendre expansion with their fixed ncoefs equals the phase function exactly, for every a and all angles.", "quantifier": "all angles and a", "why_tests_cant": "identity of functions", "anchors": ["src/rt1_model/volume.py: Isotropic, Rayleigh", "src/rt1_model/surface.py: Isotropic", "src/rt1_model/_scatter.py: _Scatter.legendre_expansion"]}
{"id": "C42", "title": "Legendre expansions converge to the phase function", "statement": "For HenyeyGreenstein (volume, surface), HG_nadirnorm, HGRayleigh and CosineLobe the Legendre expansion converges to the phase function as ncoefs grows, for |t|<1 (every power of the lobe) and every scattering angle.", "quantifier": "all t, powers, scattering angles; ncoefs to infinity", "why_tests_cant": "limits over unbounded ncoefs", "anchors": ["src/rt1_model/volume.py: HenyeyGreenstein.legendre_coefficients, HGRayleigh.legendre_coefficients", "src/rt1_model/surface.py: HenyeyGreenstein.legendre_coefficients, HG_nadirnorm.legendre_coefficients, CosineLobe.legendre_coefficients"]}
{"id": "C43", "title": "CosineLobe coefficients", "statement": "The CosineLobe coefficients are the Legendre projection coefficients (2n+1)/2 * int_{-1}^{1} f P_n of its phase function, for every admissible power i and every n.", "quantifier": "all i>=0 and n", "why_tests_cant": "unbounded i and n", "anchors": ["src/rt1_model/surface.py: CosineLobe"]}
{"id": "C44", "title": "Phase functions are non-negative", "statement": "All predefined phase functions are finite and non-negative for |t|<1 and every scattering angle.", "quantifier": "all t, angles", "why_tests_cant": "continuous domain", "anchors": ["src/rt1_model/volume.py: *", "src/rt1_model/surface.py: *"]}
{"id": "C45", "title": "Symmetries of the Henyey-Greenstein family", "statement": "volume.HenyeyGreenstein(t=0) equals volume.Isotropic; flipping the signs of t and of the scattering angle leaves the HG functions unchanged; HGRayleigh(t=0) equals Rayleigh.", "quantifier": "all angles, t", "why_tests_cant": "continuous domain", "anchors": ["src/rt1_model/volume.py: HenyeyGreenstein, HGRayleigh, Isotropic, Rayleigh"]}
{"id": "C46", "title": "LinComb is the weighted sum", "statement": "LinComb.calc equals the weighted sum of the calc values of its parts, for any number of parts, any weights; consequently the surface (volume) contribution is the weighted sum of the contributions of the parts; weights summing to 1 preserve normalisation.", "quantifier": "all lists of parts and weights, nested combinations", "why_tests_cant": "unbounded number of parts", "anchors": ["src/rt1_model/_scatter.py: _LinComb.phase_function"]}
{"id": "C47", "title": "LinComb expansion is the weighted sum of expansions", "statement": "LinComb.legendre_expansion equals the weighted sum of the parts' legendre_expansion (each with its own ncoefs and a).", "quantifier": "all lists of parts, weights, ncoefs, a", "why_tests_cant": "unbounded number of parts", "anchors": ["src/rt1_model/_scatter.py: _LinComb.legendre_expansion, _LinComb.__init__"]}
{"id": "C48", "title": "LinComb works with the interaction term", "statement": "For a LinComb, ncoefs is large enough that the fn-coefficients of the combination satisfy their defining equation.", "quantifier": "all lists of parts", "why_tests_cant": "unbounded number of parts", "anchors": ["src/rt1_model/_scatter.py: _LinComb.ncoefs", "src/rt1_model/_calc.py: RT1._extract_coefficients"]}
{"id": "C49", "title": "Jacobian with respect to omega, NormBRDF and bsf", "statement": "The corresponding jacobian() entries are the derivatives of the surface+volume signal in the selected units (linear/dB, intensity/sigma0).", "quantifier": "all inputs and unit settings", "why_tests_cant": "derivative identities on a continuous domain", "anchors": ["src/rt1_model/_calc.py: RT1.jacobian, RT1._dvolume_domega, RT1._dsurface_dNormBRDF, RT1._dsurface_dbsf, RT1._dvolume_dbsf"]}
{"id": "C50", "title": "Jacobian with respect to tau", "statement": "The 'tau' entry of jacobian() is the derivative of the surface+volume signal with respect to tau.", "quantifier": "all inputs and unit settings", "why_tests_cant": "derivative identities on a continuous domain; no shipped test covers it", "anchors": ["src/rt1_model/_calc.py: RT1._dvolume_dtau, RT1._dsurface_dtau"]}
{"id": "C51", "title": "Jacobian scales with the incident intensity like the signal", "statement": "In linear sigma0 units the jacobian is the derivative of the returned sigma0 also for I0 != 1.", "quantifier": "all I0", "why_tests_cant": "continuous domain", "anchors": ["src/rt1_model/_calc.py: RT1.jacobian"]}
{"id": "C52", "title": "Jacobian with respect to custom parameters", "statement": "For any parameter name used in the definitions of tau, omega, NormBRDF, bsf, V or SRF, the jacobian entry is the derivative of the surface+volume signal with respect to that parameter.", "quantifier": "all model definitions and names", "why_tests_cant": "all ways a name can be used in the definitions", "anchors": ["src/rt1_model/_calc.py: RT1._d_volume_ddummy, RT1._d_surface_ddummy, RT1._dparam_ddummy"]}
{"id": "C53", "title": "scipy jacobian layout", "statement": "format='scipy_least_squares' returns a matrix with one row per (ravelled) observation and one column per scalar unknown: static parameters give a full column, a timeseries parameter gives one column per timestamp that is zero outside the observations of that timestamp.", "quantifier": "all numbers of timestamps, observations and parameters", "why_tests_cant": "unbounded sizes", "anchors": ["src/rt1_model/_calc.py: RT1.jacobian"]}
{"id": "C54", "title": "Jacobian argument errors", "statement": "Parameter names that are neither known nor in param_dict raise AssertionError and unknown formats raise TypeError.", "quantifier": "all names, formats", "why_tests_cant": "all names", "anchors": ["src/rt1_model/_calc.py: RT1.jacobian"]}
{"id": "C55", "title": "Array evaluation is elementwise", "statement": "Surface and volume contributions for arrays of angles and parameters equal, at every index of the broadcast shape, the result of the scalar evaluation at that index.", "quantifier": "all array shapes and ranks", "why_tests_cant": "unbounded shapes", "anchors": ["src/rt1_model/_calc.py: RT1._surface, RT1._volume, RT1._convert_sig0_db"]}
{"id": "C56", "title": "Interaction array evaluation is elementwise", "statement": "The interaction contribution for arrays equals, at every index of the broadcast shape, the scalar evaluation at that index.", "quantifier": "all array shapes and ranks", "why_tests_cant": "unbounded shapes; a leading coefficient axis takes part in broadcasting", "anchors": ["src/rt1_model/_calc.py: RT1._calc_Fint_1, RT1._calc_Fint_2, RT1._S2_mu, RT1._mu_0_x"]}
{"id": "C57", "title": "calc accepts all broadcastable inputs", "statement": "If angles and parameters can be broadcast together, calc() returns an array of that broadcast shape for every contribution.", "quantifier": "all shapes", "why_tests_cant": "unbounded shapes", "anchors": ["src/rt1_model/_calc.py: RT1.calc"]}
{"id": "C58", "title": "ncoefs only needed for the interaction", "statement": "A scattering function without ncoefs raises AttributeError only when the interaction term is evaluated; with int_Q=False surface, volume and calc never need it.", "quantifier": "all models and states", "why_tests_cant": "all models", "anchors": ["src/rt1_model/_scatter.py: _Scatter.ncoefs", "src/rt1_model/_calc.py: RT1.calc"]}
{"id": "C59", "title": "Number and array optical depths agree", "statement": "Setting R.tau to a number gives the same contributions as supplying the same value through the parameter dictionary.", "quantifier": "all tau", "why_tests_cant": "two code paths; continuous domain", "anchors": ["src/rt1_model/_calc.py: RT1.calc"]}
{"id": "C60", "title": "Pre-computed coefficients are honoured", "statement": "If fnevals_input (fn_input) is given, the interaction term is evaluated with exactly these functions (coefficients), in every state before the object compiles its own.", "quantifier": "all reachable states", "why_tests_cant": "all histories", "anchors": ["src/rt1_model/_calc.py: RT1._fn, RT1._fnevals"]}
{"id": "C61", "title": "Analyzer slider defaults", "statement": "If no start value is given, the analyzer starts each parameter at the centre of its range; an explicit start value is used as is.", "quantifier": "all ranges", "why_tests_cant": "continuous domain", "anchors": ["src/rt1_model/plot.py: Analyze._parse_parameters"]}
{"id": "C62", "title": "3D analyzer shows the requested contributions", "statement": "The rows selected for the contributions string are the rows of calc() with these meanings, and int_Q is restored afterwards even if evaluation raises.", "quantifier": "all contribution strings", "why_tests_cant": "all strings", "anchors": ["src/rt1_model/plot.py: Analyze3D._cx_set_intq, Analyze3D.__init__"]}
{"id": "C63", "title": "Docstring merging keeps the class's own parameter descriptions", "statement": "append_numpy_docstring keeps every parameter of the decorated object's docstring with its own description and adds exactly the base parameters that are not already documented, each once.", "quantifier": "all docstrings (as parsed parameter lists)", "why_tests_cant": "unbounded lists", "anchors": ["src/rt1_model/helpers.py: append_numpy_docstring"]}
{"id": "C64", "title": "Analyzers offer and require exactly the model's parameters", "statement": "Creating an analyzer fails with a message that lists exactly the symbols that have neither a slider nor a value; otherwise it has sliders for exactly those supplied parameters that the model uses, with the given ranges and start values. If every symbol has a slider or a value, the analyzer can be created and no sequence of user events raises an exception.", "quantifier": "all models, sets of sliders and event sequences", "why_tests_cant": "unbounded event sequences; all models", "anchors": ["src/rt1_model/plot.py: Analyze.__init__, Analyze._parse_parameters, Analyze3D.__init__"]}
{"id": "C65", "title": "Analyzer lines show the labelled contributions", "statement": "After creation and after every user event the lines of the 2D analyzer are the rows of calc() named by their labels, for the values of the sliders; the dashed line is the sum of surface and volume in the units of the object.", "quantifier": "all models, event sequences and calls on the object in between", "why_tests_cant": "unbounded event sequences", "anchors": ["src/rt1_model/plot.py: Analyze._getlines, Analyze._update"]}
{"id": "C66", "title": "Range overlay", "statement": "With a range parameter selected, the overlay lines are the results of calc() with that parameter at 20 equidistant values between the limits of its slider and all others at their slider values, and drawing the overlay does not fail.", "quantifier": "all models, sliders and range parameters", "why_tests_cant": "all models and shapes", "anchors": ["src/rt1_model/plot.py: Analyze._getlines, Analyze._update"]}
{"id": "C67", "title": "Analyzer leaves the state it shows", "statement": "After an event, param_dict of the object holds the values of the sliders, and calc() without arguments returns what is drawn.", "quantifier": "all models and event sequences", "why_tests_cant": "unbounded event sequences", "anchors": ["src/rt1_model/plot.py: Analyze._update, Analyze._getlines"]}
{"id": "C68", "title": "3D analyzer surfaces", "statement": "Each surface of the 3D analyzer has, in the direction of exit angle and azimuth of the grid, the distance from the origin that calc() returns for the requested contribution at the incidence angle and the parameter values of the sliders.", "quantifier": "all models, contributions, sample counts, event sequences and calls in between that leave the geometry of the object alone", "why_tests_cant": "unbounded event sequences and grid sizes", "anchors": ["src/rt1_model/plot.py: Analyze3D.__init__, Analyze3D._update, Analyze3D._cx_set_intq"]}
{"id": "C69", "title": "Analyzers leave everything else untouched", "statement": "Creating or using an analyzer changes only the geometry of its object, the values of the parameters with sliders and (3D) the dB flag: scattering functions, intensity, other units, int_Q, definitions, all other parameters, the backend and all other objects are left as they were, also if an exception is raised.", "quantifier": "all states and events, including failing ones", "why_tests_cant": "all histories, exceptions", "anchors": ["src/rt1_model/plot.py: Analyze, Analyze3D"]}
{"id": "C70", "title": "Numerical hemispherical reflectance", "statement": "hemreflect() returns one value per incidence angle of its grid that converges, with the number of points, to NormBRDF times the hemispherical reflectance of the surface function (the integral over the upper hemisphere weighted with the cosine of the exit angle), for a surface function as well as for an RT1 object; the warning is printed exactly if a returned value exceeds 1.", "quantifier": "all surface functions, parameters, incidence angles, numbers of points", "why_tests_cant": "limits over the number of points; integrals over a continuous domain", "anchors": ["src/rt1_model/plot.py: hemreflect"]}
{"id": "C71", "title": "Polar plots show the scattering function", "statement": "polarplot() draws, for every parameter dictionary and incidence angle, a line whose radius in each drawn direction (0.01 steps; upper half plane for surfaces, whole plane for volumes) is the value of the scattering function for the incident ray drawn as arrow and that direction, and, if ncoefs is known, a dashed line with the values of the Legendre expansion in the same directions, which converges to the solid line with ncoefs. Missing parameters raise an AssertionError that names exactly them; otherwise the plot succeeds.", "quantifier": "all scattering functions, parameters, incidence angles", "why_tests_cant": "continuous domain; limits over ncoefs", "anchors": ["src/rt1_model/plot.py: polarplot"]}
{"id": "C72", "title": "Log level and format", "statement": "After set_loglevel(level, fmt), every message of the package with at least that level is printed exactly once by the package and no other message is, no matter how often set_loglevel was called before; fmt may be one of the documented short names or a format string, None keeps the format. Unknown levels raise and change nothing.", "quantifier": "all levels, formats and sequences of calls, failing ones included", "why_tests_cant": "unbounded call sequences; all format strings", "anchors": ["src/rt1_model/__init__.py: set_loglevel, _set_logfmt, _ensure_handler"]}
{"id": "C73", "title": "Selecting the backend takes effect", "statement": "After set_lambda_backend(name), evaluations return what they return if the same program selects this backend at the start and never changes it.", "quantifier": "all call sequences with any calls of set_lambda_backend in between", "why_tests_cant": "unbounded histories; memo tables", "anchors": ["src/rt1_model/__init__.py: set_lambda_backend", "src/rt1_model/_scatter.py: _Scatter._lambda_func", "src/rt1_model/helpers.py: _lambdify", "src/rt1_model/_calc.py: RT1._get_param_funcs, RT1._fnevals"]}
{"id": "C74", "title": "Energy conservation", "statement": "If single scattering albedo and soil fraction are between 0 and 1 and the surface (NormBRDF times surface function) reflects at most the incoming energy, then the intensities returned by calc() for all exit directions, weighted with the cosine of the exit angle and summed over the upper hemisphere, are non-negative and at most I0 cos(t_0), in all units and with or without interaction term.", "quantifier": "all balanced reciprocal scattering functions, parameter values and incidence directions", "why_tests_cant": "integral over a continuum of exit directions", "anchors": ["src/rt1_model/_calc.py: RT1.calc, RT1._surface, RT1._volume, RT1._interaction"]}
{"id": "C75", "title": "The interaction contribution converges with ncoefs", "statement": "For predefined scattering functions and linear combinations of them, the interaction contribution (and the total) returned with ncoefs coefficients converges, as ncoefs grows, to the documented double integral evaluated with the scattering functions themselves, in all units; where the scattering functions are not negative the limit is not negative.", "quantifier": "all predefined functions and linear combinations, parameter values, directions", "why_tests_cant": "limit over the number of coefficients; double integral over the hemisphere", "anchors": ["src/rt1_model/_calc.py: RT1._interaction, RT1._calc_Fint_1, RT1._calc_Fint_2", "src/rt1_model/_scatter.py: _Scatter._legexpansion"]}
{"id": "C76", "title": "What the observations determine", "statement": "With all other inputs fixed, the total returned by calc() grows strictly with omega and with NormBRDF, in all units, with and without interaction term, so that a measured total determines either of them; without interaction term it grows, falls or does not change with tau and with bsf depending only on how NormBRDF times the surface function compares with omega times the phase function divided by the sum of the cosines of the two directions; with interaction term it grows, falls or does not change with bsf depending only on how the total at bsf=1 compares with the total at bsf=0, while the total need not determine tau. Two volume contributions from geometries with different path lengths determine tau and omega together, two surface contributions tau and NormBRDF.", "quantifier": "all objects, parameter values, units, pairs of geometries", "why_tests_cant": "monotonicity and injectivity on continuous domains", "anchors": ["src/rt1_model/_calc.py: RT1.calc, RT1._surface, RT1._volume, RT1._interaction, RT1._convert_sig0_db"]}
{"id": "C77", "title": "Merged docstrings say what the docstrings say together", "statement": "The docstring that append_numpy_docstring produces, read as a numpydoc docstring, consists of the own summary followed by those of the other docstrings, the remaining opening paragraphs, the own parameters with their own description followed by the first description of every other parameter, and the entries of all other sections, own ones first; nothing is lost, garbled or attributed to another section, whatever the indentation.", "quantifier": "all docstrings made of opening paragraphs and sections, any number of docstrings to merge", "why_tests_cant": "unbounded texts: tests see single docstrings", "anchors": ["src/rt1_model/helpers.py: append_numpy_docstring", "src/rt1_model/_numpydoc_docscrape.py: NumpyDocString, Reader"]}
{"id": "C78", "title": "Accuracy of the truncated interaction", "statement": "For predefined scattering functions other than the cosine lobe and linear combinations of them, the interaction contribution (and the total) returned with ncoefs = n >= 2 coefficients differs from the documented double integral of the scattering functions themselves by at most an explicit amount: for a Henyey-Greenstein function it decreases like (2n+1)|t|^n, isotropic functions and Rayleigh cause no error, and the whole is limited by the attenuation along one path times the absorption along the other.", "quantifier": "all predefined functions except CosineLobe and linear combinations, all numbers of coefficients, parameter values, directions", "why_tests_cant": "error bound on a continuous domain for every number of coefficients", "anchors": ["src/rt1_model/_calc.py: RT1._interaction, RT1._calc_Fint_1, RT1._calc_Fint_2", "src/rt1_model/_scatter.py: _Scatter._legexpansion", "src/rt1_model/volume.py: *", "src/rt1_model/surface.py: *"]}
{"id": "C79", "title": "Optically thick canopy", "statement": "As the optical depth grows, the total returned by calc() converges, in all units and geometry modes and with or without interaction term, to the signal of the bare soil fraction plus (1-bsf) I0 omega cos t_0/(cos t_0 + cos t_ex) times the phase function; in linear units it differs from this value by at most an explicit amount that decreases exponentially with the optical depth. Without bare soil the limit does not depend on the surface.", "quantifier": "all predefined functions except CosineLobe and linear combinations (any scattering function without interaction term), parameter values, directions", "why_tests_cant": "limit over an unbounded parameter", "anchors": ["src/rt1_model/_calc.py: RT1.calc, RT1._surface, RT1._volume, RT1._interaction"]}
{"id": "C80", "title": "Small changes of the inputs", "statement": "Returned contributions change continuously: if angles, intensity, parameters and the parameters of the scattering functions approach values for which the contribution is finite, the returned contributions approach the one returned there, in all units and geometry modes, with or without interaction term. At nadir, where the interaction term is undefined in the implementation, the monostatic values approach the documented contribution; for vanishing optical depth they approach the signal of the bare soil, which is what calc() returns at tau=0. In linear units the total differs from the bare soil signal by at most an explicit multiple of tau/cos t_0 + tau/cos t_ex, and without interaction term it is a weighted mean of the bare soil signal and that of a canopy without end.", "quantifier": "all sequences of inputs, predefined functions and linear combinations (any scattering functions without interaction term), units, geometry modes", "why_tests_cant": "limits over sequences in a continuous domain; singular points of the implementation", "anchors": ["src/rt1_model/_calc.py: RT1.calc, RT1._surface, RT1._volume, RT1._interaction, RT1._convert_sig0_db", "src/rt1_model/_scatter.py: _Scatter._legexpansion", "src/rt1_model/volume.py: *", "src/rt1_model/surface.py: *"]}
{"id": "C81", "title": "Evaluations have no hidden effect", "statement": "What an evaluation returns is determined by the settings of the object (everything that can be set or read), not by what has been evaluated before: inserting evaluations without arguments, getters, jacobian calls and clear_cache anywhere into a program, on any objects, leaves every setting and the outcome (array or exception) of every later call unchanged.", "quantifier": "all programs and all ways to insert such calls", "why_tests_cant": "unbounded histories; memo tables and stored coefficients", "anchors": ["src/rt1_model/_calc.py: RT1.calc, RT1.surface, RT1.volume, RT1.interaction, RT1.jacobian, RT1._fnevals, RT1.clear_cache"]}
{"id": "C82", "title": "Objects behave like plain records", "statement": "A program that creates, changes, evaluates, pickles and clears any number of objects cannot be told apart from the same program on plain records of the settings: a record that setters change, evaluations are functions of, and no other call touches; the list of everything the calls return (arrays, jacobians, names, object identities, exceptions) is the same.", "quantifier": "all programs, all numbers of objects", "why_tests_cant": "unbounded programs over several objects; memo tables, stored coefficients and shared state", "anchors": ["src/rt1_model/_calc.py: RT1 (all public methods)", "src/rt1_model/_scatter.py: _Scatter._lambda_func"]}
{"id": "C83", "title": "Changing a scattering function takes effect", "statement": "After an attribute a, t or i of a scattering function was assigned, its values and its Legendre expansion, and those of every linear combination that contains it, are those of a function created with the current attributes; without assignments a scattering function keeps behaving like the one that was created, whatever was evaluated before, however many functions there are and however they share their parts.", "quantifier": "all programs that create, combine, change and evaluate scattering functions", "why_tests_cant": "unbounded programs; shared parts and a memo table common to all functions", "anchors": ["src/rt1_model/_scatter.py: _Scatter._lambda_func, _Scatter.calc, _Scatter.legendre_expansion, _LinComb"]}
{"id": "C84", "title": "The order of settings does not matter", "statement": "Programs that differ only in the order of keyword arguments, or in the order of consecutive setters of different settings (geometry, parameter values, definition of tau, omega, NormBRDF or bsf, int_Q, sig0, dB, I0; setters of different objects), or in whether parameters are set in one call of update_params or in several, return the same: every call returns the same arrays or raises the same exceptions.", "quantifier": "all programs on any number of objects, all orders", "why_tests_cant": "unbounded programs, all permutations; stored coefficients that get the parameters by position", "anchors": ["src/rt1_model/_calc.py: RT1.update_params, RT1.calc, RT1.surface, RT1.volume, RT1.interaction, RT1._fnevals, RT1._calc_Fint_1, RT1._calc_Fint_2, property setters"]}
{"id": "C85", "title": "3D analyzer frame and rays", "statement": "All drawn points of a newly created 3D analyzer are within the limits of the axes, which are given by the largest drawn coordinate. The dashed line ends in the direction of specular reflection and the solid line in the direction from which the incident ray comes, both as long as the largest drawn height; the Henyey-Greenstein surface function has its maximum exactly in the direction of the dashed line, the Henyey-Greenstein volume function its extreme value exactly in the direction of the solid line. The analyzer can be created if and only if there is something to draw.", "quantifier": "all models, contributions, sample counts, slider positions, asymmetry factors", "why_tests_cant": "all grid sizes and models; maximum over a continuum of directions", "anchors": ["src/rt1_model/plot.py: Analyze3D._update, Analyze3D._getarrow, Analyze3D._getvals"]}
{"id": "C86", "title": "Constructors of scattering functions", "statement": "The constructor of a predefined scattering function or of a linear combination accepts its arguments exactly if only documented arguments are passed, each at most once, a consists of three values, and t (i, choices) is given and of the documented kind; t is between -1 and 1, i is a non-negative integer, ncoefs a positive integer. Otherwise it raises AssertionError (TypeError if the arguments do not fit the signature). The order of keywords does not matter, and the created object returns the textbook values for the numbers, symbols or strings that were passed, combinations the weighted sum of their parts.", "quantifier": "all classes, argument lists and values, any number of parts", "why_tests_cant": "all combinations and orders of arguments of any type", "anchors": ["src/rt1_model/volume.py: *", "src/rt1_model/surface.py: *", "src/rt1_model/_scatter.py: _LinComb.__init__", "src/rt1_model/helpers.py: _parse_sympy_param"]}
{"id": "C87", "title": "The matrix for least_squares is the Jacobian of the totals", "statement": "jacobian(names, \"scipy_least_squares\") returns the matrix that scipy.optimize.least_squares expects: its rows belong to the ravelled totals of calc(), its columns to the fitted numbers (one for a parameter that is a number, one per timestamp for a timeseries), and each entry is the derivative of that total of calc() with respect to that number, all other inputs kept.", "quantifier": "all objects without interaction term, numbers of timestamps and observations, lists of parameters, values, units", "why_tests_cant": "derivatives on a continuous domain; all shapes and lists of parameters", "anchors": ["src/rt1_model/_calc.py: RT1.jacobian, RT1.calc"]}
{"id": "C88", "title": "The figure of the hemispherical reflectance shows the returned values", "statement": "hemreflect() without returnarray draws exactly the numbers that the same call with returnarray=True returns: for every row of the result a line through the points (incidence angle in degrees, number), labelled with the value of NormBRDF it belongs to, and the same points in red if showpoints is set; all drawn numbers lie within the limits of the axes.", "quantifier": "all surface functions and objects, parameters, values of NormBRDF, incidence angles", "why_tests_cant": "all inputs; several values of NormBRDF", "anchors": ["src/rt1_model/plot.py: hemreflect"]}
{"id": "C89", "title": "Parameters may have any name", "statement": "How the parameters of a model are called does not matter for the program: evaluating an object never changes what later calls on it or on other objects do because of the names of its parameters, in particular no call fails because of them.", "quantifier": "all programs, numbers of objects and names of parameters", "why_tests_cant": "all names; effects across objects through the namespace of the module", "anchors": ["src/rt1_model/_calc.py: RT1._fnevals, RT1.update_params, RT1.calc"]}
{"id": "C90", "title": "A formula given as text means what it says", "statement": "After a text was assigned to tau, omega, NormBRDF or bsf, and as long as nothing else is assigned to it, the parameter has, element by element, the value of the formula for the values supplied last for the names in it; if a name has no value a TypeError names exactly the missing ones. A text passed for a parameter of a predefined scattering function or a weight of a linear combination means the value of the formula as well.", "quantifier": "all formulas built from names, numbers, arithmetic, powers and elementary functions; all later programs", "why_tests_cant": "unbounded formulas and programs; names with a meaning elsewhere", "anchors": ["src/rt1_model/helpers.py: _parse_sympy_param", "src/rt1_model/_calc.py: RT1._get_param_symbs, RT1._get_param_funcs, RT1._eval_param"]}
{"id": "C91", "title": "The names of the parameters of scattering functions do not matter", "statement": "Renaming the parameters of a scattering function consistently, in its definition (own parameter, weights, generalization parameters) and in param_dict, changes nothing: calc() returns the same arrays or raises the same exceptions, hemreflect returns the same, and the Legendre expansion has the same values.", "quantifier": "all scattering functions (any nesting of combinations), all renamings that keep different names different and the names of the angles", "why_tests_cant": "all names; symbols the implementation uses internally", "anchors": ["src/rt1_model/_scatter.py: _Scatter.calc, _Scatter.legendre_expansion, _LinComb.legendre_expansion", "src/rt1_model/volume.py: *", "src/rt1_model/surface.py: *", "src/rt1_model/plot.py: hemreflect"]}
{"id": "C92", "title": "The names of the parameters of RT1 objects do not matter", "statement": "Renaming all parameters of an RT1 object consistently (in the definitions of tau, omega, NormBRDF and bsf, in V and SRF, in param_dict and in the arguments of calls) changes nothing: surface(), volume(), interaction(), calc(), jacobian() and the values of the parameters are the same arrays, or the same exceptions whose messages list the renamed parameters.", "quantifier": "all objects in all reachable states, all renamings that keep different names different, the names of the angles and bsf; all arguments", "why_tests_cant": "all names and all histories; symbols the implementation uses internally", "anchors": ["src/rt1_model/_calc.py: RT1.calc, RT1.surface, RT1.volume, RT1.interaction, RT1.update_params, RT1._eval_param", "src/rt1_model/_scatter.py: _Scatter.calc"]}
{"id": "C93", "title": "Quick access to the plot functions", "statement": "V.polarplot(...) and S.hemreflect(...), called with keyword arguments, draw and evaluate what polarplot(V, ...) and hemreflect(SRF=S, ...) do, for V and S themselves unless another object is given explicitly; R.analyze(...) and R.analyze3d(...) create the analyzer of R with exactly the sliders given as keyword arguments, in this order, and the given or default settings. Positional arguments, unknown keywords and second values for the object raise TypeError, except that a positional argument of S.hemreflect is taken as an RT1 object that replaces S. A parameter of the model called like a parameter of the analyzer can have no slider.", "quantifier": "all scattering functions, objects, histories and argument lists", "why_tests_cant": "all argument lists and objects", "anchors": ["src/rt1_model/_scatter.py: _Scatter._register_plotfuncs", "src/rt1_model/_calc.py: RT1.analyze, RT1.analyze3d", "src/rt1_model/plot.py: polarplot, hemreflect, Analyze, Analyze3D"]}
{"id": "C94", "title": "Polar plots can be read off", "statement": "In the figure of polarplot(), the lines for an incidence angle, the arrow that shows its direction and its entry in the legend have one colour, for all parameter dictionaries; the legend names the angles, rounded to a tenth of a degree, in the order given, and has an entry for the dashed lines exactly if these are drawn; up to seven incidence angles have different colours. The ticks are labelled with their polar angle in degrees. The ground is drawn for surface functions only.", "quantifier": "all scattering functions, lists of incidence angles, parameter dictionaries and settings", "why_tests_cant": "any number of incidence angles and dictionaries", "anchors": ["src/rt1_model/plot.py: polarplot"]}
{"id": "C95", "title": "Layout of the analyzers", "statement": "Every supplied parameter that the model uses has a slider in the figure of an analyzer (none is left out, however many there are), each at a place of its own, in the order given, in two columns without empty rows. The 2D analyzer has a button \"None\" and one button for every slider; the active one is that of the range parameter, and clicking a button selects its parameter. The label of the vertical axis tells in which of the four units (intensity or sigma0, linear or dB) the object was when the analyzer was created.", "quantifier": "all models, any number of parameters and columns", "why_tests_cant": "any number of sliders", "anchors": ["src/rt1_model/plot.py: Analyze._init_figure, Analyze3D._init_figure"]}
{"id": "C96", "title": "The 3D analyzer shows the current picture only", "statement": "The axes of the 3D analyzer contain, after any sequence of slider movements, exactly the ground plane, one surface for each requested contribution with the coordinates calculated for the current positions of the sliders, and two rays: nothing is left of earlier pictures, also if callbacks failed in between, and after a failing callback no outdated surface is shown. Surfaces and the lines of the legend have the label and the colour of their contribution, throughout the session; different contributions have different labels and colours. The ground plane is the horizontal square at height zero that spans the axes of the new analyzer; a point of a surface lies above it exactly where the contribution is positive.", "quantifier": "all models, contributions, sequences of slider movements (also failing ones) interleaved with any other calls", "why_tests_cant": "unbounded sessions; stale artists", "anchors": ["src/rt1_model/plot.py: Analyze3D.__init__, Analyze3D._update, Analyze3D._getsurface"]}
{"id": "C97", "title": "The analyzers show the documented model", "statement": "What the figures of the analyzers show are the documented values: after every event the lines of the 2D analyzer labelled Surface and Volume hold, at every angle, the documented surface and volume contribution for the values of the sliders, in the units of the object, and the line labelled Total their sum plus the interaction term; a point of a surface in the 3D analyzer lies in the direction of scattering for which the contribution was calculated, at the distance given by the documented contribution, for the incidence angle of its slider.", "quantifier": "all models, parameters, sequences of slider movements and selections, all angles and directions", "why_tests_cant": "all sessions and values; agreement with the documented formulas", "anchors": ["src/rt1_model/plot.py: Analyze._update, Analyze3D._update, Analyze3D._getsurface", "src/rt1_model/_calc.py: RT1.calc"]}
