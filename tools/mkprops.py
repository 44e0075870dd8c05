#!/usr/bin/env python3
"""Writes /verif/properties.jsonl (source of truth for the property list)."""
import json, os
C="src/rt1_model/_calc.py"; S="src/rt1_model/_scatter.py"; V="src/rt1_model/volume.py"; F="src/rt1_model/surface.py"; H="src/rt1_model/helpers.py"; I="src/rt1_model/__init__.py"; P="src/rt1_model/plot.py"
P_=[]
def p(title, statement, quantifier, why, anchors):
    P_.append(dict(id="C%02d"%(len(P_)+1), title=title, statement=statement, quantifier=quantifier, why_tests_cant=why, anchors=anchors))
# ---- state / geometry
p("No stale cosines","After any history of public calls on any number of RT1 objects (geometry changes, parameter changes, evaluations, failing calls), every evaluation uses the cosines of the incidence and exit angles that are currently set on that object.","all finite histories of API calls on any number of objects, including calls that raise and caches that evict","the cosines are memoised in caches shared by all objects; a test can only try a few interleavings of set_geometry/set_monostatic/set_bistatic/calc",[C+": RT1._mu_0, RT1._mu_ex, RT1._mu_0_x, RT1._mu_ex_x, RT1._clear_geom_cache, RT1.set_geometry, RT1.set_monostatic, RT1.set_bistatic"])
p("Results follow R.t_0 even if the caller reuses the array","If the caller later overwrites the contents of the array passed to set_geometry, an evaluation is consistent with the angle the object then reports as R.t_0 (it either keeps the old value or uses the new one everywhere).","all arrays, all overwrites, all later evaluations","aliasing shows only for particular call orders (evaluate, overwrite, evaluate)",[C+": RT1._sanitize_geometry_parameter, RT1._mu_0, RT1.set_geometry"])
p("Monostatic relations","While an object is in monostatic mode, R.t_ex equals R.t_0 and R.p_ex equals R.p_0 + pi (or reading them raises because the incidence angle was never set).","all reachable states","must hold after every mode-switching history",[C+": RT1.t_ex, RT1.p_ex, RT1.set_monostatic"])
p("Fixed angles stay fixed","An angle fixed by set_monostatic/set_bistatic keeps that value until the next set_monostatic/set_bistatic call; set_geometry on a fixed angle raises AssertionError and does not change it.","all histories and all set_geometry calls","every keyword combination and order of calls matters",[C+": RT1.set_bistatic, RT1.set_monostatic, RT1._sanitize_geometry_parameter, RT1.set_geometry"])
p("Invalid set_geometry calls have no effect","set_geometry with an unknown angle name raises TypeError, and with an exit angle in monostatic mode raises AssertionError; in both cases no angle of any object changes.","all keyword sets and states","all keyword combinations and orders",[C+": RT1.set_geometry"])
p("Geometry setters are all-or-nothing","If set_geometry, set_monostatic or set_bistatic raises, the object's geometry is what it was before the call.","all calls that raise","atomicity is about every failing argument position",[C+": RT1.set_geometry, RT1.set_monostatic, RT1.set_bistatic"])
p("Parameter dictionary is a last-write-wins map","After any sequence of update_params/calc/surface/volume/interaction calls, R.param_dict maps every name ever supplied to the last value supplied for it (as an at-least-1-d array), contains 'bsf' (default 0), and never drops or reorders names.","all call sequences and keyword sets","unbounded histories",[C+": RT1.update_params, RT1.calc, RT1.param_dict"])
p("Parameter getters are never stale","R.tau, R.omega, R.NormBRDF and R.bsf always equal the most recently assigned definition evaluated at the current parameter values.","all histories over any number of objects","the compiled definitions are memoised per object and cleared on assignment",[C+": RT1._get_param_funcs, RT1._get_param_symbs, RT1._eval_param, RT1._clear_param_cache, RT1.tau"])
p("calc(**p) is update_params(**p) then calc()","calc(**p) returns what update_params(**p) followed by calc() returns and leaves the same parameters; calling calc() again returns the same arrays.","all reachable states and parameter sets","must hold for every state of the memo tables",[C+": RT1.calc, RT1.update_params"])
p("Objects do not influence each other","Calls on one RT1 object never change the angles, parameters or evaluation results of another RT1 object.","all interleavings of calls on any number of objects","the memo tables are class-level and shared by all instances",[C+": RT1._clear_cache, RT1._mu_0, RT1._get_param_funcs"])
p("Interaction uses each parameter's own value","When the interaction term is evaluated, every symbol in the expansion coefficients is given the current value of the parameter with that name, independent of the order in which parameters were supplied or updated.","all histories of parameter updates before and after the first evaluation","values are passed positionally to a function compiled for an earlier parameter dictionary",[C+": RT1._fnevals, RT1._calc_Fint_1, RT1._calc_Fint_2, RT1.update_params"])
p("Parameters may be added at any time","After a successful evaluation, supplying a further (previously unknown) parameter name with update_params or calc does not make evaluation fail.","all states after an evaluation, all new names","needs a history with a new name after the coefficients were compiled",[C+": RT1._fnevals, RT1._calc_Fint_1, RT1._d_volume_dummy_lambda, RT1._d_surface_dummy_lambda"])
p("Coefficients follow the geometry mode","After set_monostatic/set_bistatic the interaction coefficients used are those of the newly selected mode and fixed angles, for any history.","all histories of mode changes and evaluations","the coefficients are cached on the object",[C+": RT1._fn, RT1._fnevals, RT1.set_monostatic, RT1.set_bistatic"])
p("Replacing V or SRF takes effect","After assigning a new scattering object to R.V or R.SRF, all results are those of the new object.","all assignments and histories","needs assignment after a cached evaluation",[C+": RT1._fn, RT1._mu_0_x"])
p("Missing parameters are reported exactly","If an evaluation fails because parameters of tau, omega, NormBRDF, bsf, V or SRF have no value, a TypeError is raised that names exactly the missing ones.","all model definitions and parameter dictionaries","all subsets of missing names",[C+": RT1.calc, RT1._eval_param, RT1._all_param_symbs"])
p("Pickling preserves behaviour","Pickling an RT1 object leaves the object usable exactly as before, and the unpickled object computes the same results.","all reachable states","state after arbitrary histories, including the object that was pickled",[C+": RT1.__getstate__"])
p("Backend choice does not change values","For the same model and inputs, the sympy and symengine backends return the same arrays; set_lambda_backend rejects any other name and then leaves the backend unchanged.","all models, inputs and histories","all shapes and definitions",[I+": set_lambda_backend, get_lambda_backend",H+": _lambdify"])
# ---- numeric formulas
p("Surface contribution","The linear surface contribution is NormBRDF*((1-bsf)*exp(-tau/cos t_0 - tau/cos t_ex) + bsf) * I0 * cos t_0 * BRDF(t_0,t_ex,p_0,p_ex).","all angles, parameters and intensities","continuous domain",[C+": RT1._surface, RT1.surface"])
p("Volume contribution","The linear volume contribution is (1-bsf) * I0 * omega * cos t_0/(cos t_0+cos t_ex) * (1-exp(-tau/cos t_0)exp(-tau/cos t_ex)) * p(t_0,t_ex,p_0,p_ex).","all angles, parameters and intensities","continuous domain",[C+": RT1._volume, RT1.volume"])
p("Total is the sum of the contributions","In linear units the first row of calc() is the sum of the other rows; in dB it is 10*log10 of the sum of 10^(row/10); with int_Q=False exactly total, surface, volume are returned and the total excludes the interaction term.","all models, inputs and unit settings","all inputs and flag combinations",[C+": RT1.calc, RT1._convert_sig0_db"])
p("No vegetation (tau = 0)","For tau = 0 the volume and interaction contributions are 0 and the surface contribution is the bare-soil one, element by element, whether tau is a number or an array.","all arrays of optical depths and angles","NaN replacement depends on the whole array, not on one element",[C+": RT1.calc"])
p("Bare-soil fraction is a linear mixture","Each linear contribution is affine in bsf; for bsf = 1 only the unattenuated surface remains and for bsf = 0 only the vegetated contributions.","all bsf and other inputs","continuous domain",[C+": RT1._surface, RT1._volume, RT1._interaction"])
p("Linearity in omega and NormBRDF","Volume and interaction are proportional to omega, surface and interaction are proportional to NormBRDF, and surface (volume) does not depend on omega (NormBRDF).","all inputs","continuous domain",[C+": RT1._surface, RT1._volume, RT1._interaction"])
p("Units: sigma0 does not depend on I0","With sig0=True every returned contribution is independent of the (non-zero) incident intensity; with sig0=False it is proportional to it; sigma0 is 4*pi*cos(t_0)/I0 times the intensity.","all non-zero I0","continuous domain",[C+": RT1._convert_sig0_db"])
p("Decibel conversion","With dB=True each value is 10*log10 of the linear value (exact inverse 10^(x/10)), order preserving, -inf for 0 and NaN for negative values.","all linear values","continuous domain and special values",[C+": RT1._convert_sig0_db"])
p("Contributions are physical: non-negative and bounded","For 0<=bsf<=1, omega>=0, tau>=0, NormBRDF>=0 and angles in [0,pi/2) surface and volume are >= 0; surface never exceeds the bare-soil value and volume never exceeds its infinite-depth value.","the whole physical parameter domain","continuous domain",[C+": RT1._surface, RT1._volume"])
p("Monotone in optical depth","For physical parameters, the surface contribution does not increase and the volume contribution does not decrease when tau grows, and they converge to the bare-soil part and the infinite-depth value.","all pairs of optical depths","continuous domain, limits",[C+": RT1._surface, RT1._volume"])
p("Reciprocity","Exchanging incidence and exit directions multiplies each linear contribution (intensity) by cos t_ex / cos t_0.","all geometries (bistatic) and models","continuous domain, all models",[C+": RT1._surface, RT1._volume, RT1._interaction, RT1._calc_Fint_1, RT1._calc_Fint_2"])
p("Azimuthal symmetry","If a[1]==a[2] for V and SRF, results depend on the azimuth angles only through their difference; monostatic results do not depend on p_0.","all azimuths, all models with a[1]==a[2]","continuous domain",[S+": _Scatter.calc_scattering_angle",C+": RT1.set_monostatic"])
p("Scattering angle is a cosine","calc_scattering_angle is symmetric under exchange of the directions, equals the spherical-geometry formula for the default a, and lies in [-1,1] whenever all |a_i| <= 1.","all angles and parameters a","continuous domain",[S+": _Scatter.calc_scattering_angle"])
p("Monostatic is the special case of bistatic","Evaluating in bistatic mode with t_ex=t_0, p_ex=p_0+pi gives the same contributions as monostatic mode.","all models, angles and parameters","all models; the shipped tests only use isotropic surfaces",[C+": RT1.set_monostatic, RT1.set_bistatic, RT1._calc_interaction_expansion"])
p("Fixing angles does not change results","Passing an angle as fixed value to set_monostatic/set_bistatic gives the same contributions as passing the same value through set_geometry.","all subsets of fixed angles, all models","all models and subsets",[C+": RT1.set_bistatic, RT1.set_monostatic, RT1._calc_Fint_2, RT1._calc_interaction_expansion"])
p("fn-coefficients solve their defining equation","The coefficients f_n satisfy sum_n f_n cos(theta)^n = int_0^{2pi} p(theta_0,phi_0,theta,phi) BRDF(theta,phi,theta_ex,phi_ex') dphi for the truncated Legendre expansions of V and SRF, for every theta (phi_ex' is the exit azimuth given to the expansion).","all numbers of coefficients, all expansion coefficients, all angles","unbounded number of coefficients; identity of functions",[C+": RT1._calc_interaction_expansion, RT1._integrate_0_2pi_phis, RT1._extract_coefficients, RT1._cosintegral"])
p("Azimuth integrals of cosine powers","_cosintegral(i) is the mean of cos^i over a full period for every power i.","all natural i","unbounded i",[C+": RT1._cosintegral"])
p("Closed form of the polar integral","For 0<cos t<1 and tau>0 the closed form used for F_int equals the defining integral over the upper hemisphere, for every power n.","all tau>0, all angles, all n","unbounded n, improper integrals",[C+": RT1._S2_mu, RT1._calc_Fint_1, RT1._mu_0_x"])
p("Interaction contribution equals its defining double integral","The returned linear interaction contribution equals NormBRDF*(1-bsf)*I0*cos t_0*omega*(exp(-tau/cos t_ex)*F_int(0->ex)+exp(-tau/cos t_0)*F_int(ex->0)) with F_int the documented double integral of the truncated expansions.","all models, angles in (0,pi/2), tau>0","identity of analytic functions for unbounded numbers of coefficients",[C+": RT1._interaction, RT1._calc_Fint_1, RT1._calc_Fint_2"])
p("Interaction is non-negative for non-negative expansions","If the truncated expansions of V and SRF are non-negative, the interaction contribution is non-negative for physical parameters.","all models with non-negative expansions","continuous domain",[C+": RT1._interaction"])
p("Evaluation yields finite numbers","For physical parameters with tau>0 and incidence/exit angles in [0,pi/2), all linear contributions are finite numbers.","all physical inputs including nadir","special points of a continuous domain",[C+": RT1._S2_mu, RT1.calc"])
p("Volume phase functions are normalised","Isotropic, Rayleigh, HenyeyGreenstein and HGRayleigh integrate to 1 over the unit sphere of exit directions (default a, |t|<1).","all t and incidence directions","integrals over a continuous domain",[V+": Isotropic, Rayleigh, HenyeyGreenstein, HGRayleigh"])
p("Hemispherical reflectances","surface.Isotropic has hemispherical reflectance 1 for every incidence direction; HG_nadirnorm has reflectance 1 at nadir incidence for every admissible t and a[0]; CosineLobe(i) has 2/(i+2) at nadir.","all t, a[0], i, incidence directions","integrals over a continuous domain",[F+": Isotropic, HG_nadirnorm, CosineLobe",P+": hemreflect"])
p("Exact Legendre expansions","For Isotropic and Rayleigh the Legendre expansion with their fixed ncoefs equals the phase function exactly, for every a and all angles.","all angles and a","identity of functions",[V+": Isotropic, Rayleigh",F+": Isotropic",S+": _Scatter.legendre_expansion"])
p("Legendre expansions converge to the phase function","For HenyeyGreenstein (volume, surface), HG_nadirnorm, HGRayleigh and CosineLobe the Legendre expansion converges to the phase function as ncoefs grows, for |t|<1 (every power of the lobe) and every scattering angle.","all t, powers, scattering angles; ncoefs to infinity","limits over unbounded ncoefs",[V+": HenyeyGreenstein.legendre_coefficients, HGRayleigh.legendre_coefficients",F+": HenyeyGreenstein.legendre_coefficients, HG_nadirnorm.legendre_coefficients, CosineLobe.legendre_coefficients"])
p("CosineLobe coefficients","The CosineLobe coefficients are the Legendre projection coefficients (2n+1)/2 * int_{-1}^{1} f P_n of its phase function, for every admissible power i and every n.","all i>=0 and n","unbounded i and n",[F+": CosineLobe"])
p("Phase functions are non-negative","All predefined phase functions are finite and non-negative for |t|<1 and every scattering angle.","all t, angles","continuous domain",[V+": *",F+": *"])
p("Symmetries of the Henyey-Greenstein family","volume.HenyeyGreenstein(t=0) equals volume.Isotropic; flipping the signs of t and of the scattering angle leaves the HG functions unchanged; HGRayleigh(t=0) equals Rayleigh.","all angles, t","continuous domain",[V+": HenyeyGreenstein, HGRayleigh, Isotropic, Rayleigh"])
p("LinComb is the weighted sum","LinComb.calc equals the weighted sum of the calc values of its parts, for any number of parts, any weights; consequently the surface (volume) contribution is the weighted sum of the contributions of the parts; weights summing to 1 preserve normalisation.","all lists of parts and weights, nested combinations","unbounded number of parts",[S+": _LinComb.phase_function"])
p("LinComb expansion is the weighted sum of expansions","LinComb.legendre_expansion equals the weighted sum of the parts' legendre_expansion (each with its own ncoefs and a).","all lists of parts, weights, ncoefs, a","unbounded number of parts",[S+": _LinComb.legendre_expansion, _LinComb.__init__"])
p("LinComb works with the interaction term","For a LinComb, ncoefs is large enough that the fn-coefficients of the combination satisfy their defining equation.","all lists of parts","unbounded number of parts",[S+": _LinComb.ncoefs",C+": RT1._extract_coefficients"])
# ---- jacobian
p("Jacobian with respect to omega, NormBRDF and bsf","The corresponding jacobian() entries are the derivatives of the surface+volume signal in the selected units (linear/dB, intensity/sigma0).","all inputs and unit settings","derivative identities on a continuous domain",[C+": RT1.jacobian, RT1._dvolume_domega, RT1._dsurface_dNormBRDF, RT1._dsurface_dbsf, RT1._dvolume_dbsf"])
p("Jacobian with respect to tau","The 'tau' entry of jacobian() is the derivative of the surface+volume signal with respect to tau.","all inputs and unit settings","derivative identities on a continuous domain; no shipped test covers it",[C+": RT1._dvolume_dtau, RT1._dsurface_dtau"])
p("Jacobian scales with the incident intensity like the signal","In linear sigma0 units the jacobian is the derivative of the returned sigma0 also for I0 != 1.","all I0","continuous domain",[C+": RT1.jacobian"])
p("Jacobian with respect to custom parameters","For any parameter name used in the definitions of tau, omega, NormBRDF, bsf, V or SRF, the jacobian entry is the derivative of the surface+volume signal with respect to that parameter.","all model definitions and names","all ways a name can be used in the definitions",[C+": RT1._d_volume_ddummy, RT1._d_surface_ddummy, RT1._dparam_ddummy"])
p("scipy jacobian layout","format='scipy_least_squares' returns a matrix with one row per (ravelled) observation and one column per scalar unknown: static parameters give a full column, a timeseries parameter gives one column per timestamp that is zero outside the observations of that timestamp.","all numbers of timestamps, observations and parameters","unbounded sizes",[C+": RT1.jacobian"])
p("Jacobian argument errors","Parameter names that are neither known nor in param_dict raise AssertionError and unknown formats raise TypeError.","all names, formats","all names",[C+": RT1.jacobian"])
# ---- arrays
p("Array evaluation is elementwise","Surface and volume contributions for arrays of angles and parameters equal, at every index of the broadcast shape, the result of the scalar evaluation at that index.","all array shapes and ranks","unbounded shapes",[C+": RT1._surface, RT1._volume, RT1._convert_sig0_db"])
p("Interaction array evaluation is elementwise","The interaction contribution for arrays equals, at every index of the broadcast shape, the scalar evaluation at that index.","all array shapes and ranks","unbounded shapes; a leading coefficient axis takes part in broadcasting",[C+": RT1._calc_Fint_1, RT1._calc_Fint_2, RT1._S2_mu, RT1._mu_0_x"])
p("calc accepts all broadcastable inputs","If angles and parameters can be broadcast together, calc() returns an array of that broadcast shape for every contribution.","all shapes","unbounded shapes",[C+": RT1.calc"])
p("ncoefs only needed for the interaction","A scattering function without ncoefs raises AttributeError only when the interaction term is evaluated; with int_Q=False surface, volume and calc never need it.","all models and states","all models",[S+": _Scatter.ncoefs",C+": RT1.calc"])
p("Number and array optical depths agree","Setting R.tau to a number gives the same contributions as supplying the same value through the parameter dictionary.","all tau","two code paths; continuous domain",[C+": RT1.calc"])
# ---- misc
p("Pre-computed coefficients are honoured","If fnevals_input (fn_input) is given, the interaction term is evaluated with exactly these functions (coefficients), in every state before the object compiles its own.","all reachable states","all histories",[C+": RT1._fn, RT1._fnevals"])
p("Analyzer slider defaults","If no start value is given, the analyzer starts each parameter at the centre of its range; an explicit start value is used as is.","all ranges","continuous domain",[P+": Analyze._parse_parameters"])
p("3D analyzer shows the requested contributions","The rows selected for the contributions string are the rows of calc() with these meanings, and int_Q is restored afterwards even if evaluation raises.","all contribution strings","all strings",[P+": Analyze3D._cx_set_intq, Analyze3D.__init__"])
p("Docstring merging keeps the class's own parameter descriptions","append_numpy_docstring keeps every parameter of the decorated object's docstring with its own description and adds exactly the base parameters that are not already documented, each once.","all docstrings (as parsed parameter lists)","unbounded lists",[H+": append_numpy_docstring"])
# ---- analyzers
p("Analyzers offer and require exactly the model's parameters","Creating an analyzer fails with a message that lists exactly the symbols that have neither a slider nor a value; otherwise it has sliders for exactly those supplied parameters that the model uses, with the given ranges and start values. If every symbol has a slider or a value, the analyzer can be created and no sequence of user events raises an exception.","all models, sets of sliders and event sequences","unbounded event sequences; all models",[P+": Analyze.__init__, Analyze._parse_parameters, Analyze3D.__init__"])
p("Analyzer lines show the labelled contributions","After creation and after every user event the lines of the 2D analyzer are the rows of calc() named by their labels, for the values of the sliders; the dashed line is the sum of surface and volume in the units of the object.","all models, event sequences and calls on the object in between","unbounded event sequences",[P+": Analyze._getlines, Analyze._update"])
p("Range overlay","With a range parameter selected, the overlay lines are the results of calc() with that parameter at 20 equidistant values between the limits of its slider and all others at their slider values, and drawing the overlay does not fail.","all models, sliders and range parameters","all models and shapes",[P+": Analyze._getlines, Analyze._update"])
p("Analyzer leaves the state it shows","After an event, param_dict of the object holds the values of the sliders, and calc() without arguments returns what is drawn.","all models and event sequences","unbounded event sequences",[P+": Analyze._update, Analyze._getlines"])
p("3D analyzer surfaces","Each surface of the 3D analyzer has, in the direction of exit angle and azimuth of the grid, the distance from the origin that calc() returns for the requested contribution at the incidence angle and the parameter values of the sliders.","all models, contributions, sample counts, event sequences and calls in between that leave the geometry of the object alone","unbounded event sequences and grid sizes",[P+": Analyze3D.__init__, Analyze3D._update, Analyze3D._cx_set_intq"])
p("Analyzers leave everything else untouched","Creating or using an analyzer changes only the geometry of its object, the values of the parameters with sliders and (3D) the dB flag: scattering functions, intensity, other units, int_Q, definitions, all other parameters, the backend and all other objects are left as they were, also if an exception is raised.","all states and events, including failing ones","all histories, exceptions",[P+": Analyze, Analyze3D"])
p("Numerical hemispherical reflectance","hemreflect() returns one value per incidence angle of its grid that converges, with the number of points, to NormBRDF times the hemispherical reflectance of the surface function (the integral over the upper hemisphere weighted with the cosine of the exit angle), for a surface function as well as for an RT1 object; the warning is printed exactly if a returned value exceeds 1.","all surface functions, parameters, incidence angles, numbers of points","limits over the number of points; integrals over a continuous domain",[P+": hemreflect"])
p("Polar plots show the scattering function","polarplot() draws, for every parameter dictionary and incidence angle, a line whose radius in each drawn direction (0.01 steps; upper half plane for surfaces, whole plane for volumes) is the value of the scattering function for the incident ray drawn as arrow and that direction, and, if ncoefs is known, a dashed line with the values of the Legendre expansion in the same directions, which converges to the solid line with ncoefs. Missing parameters raise an AssertionError that names exactly them; otherwise the plot succeeds.","all scattering functions, parameters, incidence angles","continuous domain; limits over ncoefs",[P+": polarplot"])
p("Log level and format","After set_loglevel(level, fmt), every message of the package with at least that level is printed exactly once by the package and no other message is, no matter how often set_loglevel was called before; fmt may be one of the documented short names or a format string, None keeps the format. Unknown levels raise and change nothing.","all levels, formats and sequences of calls, failing ones included","unbounded call sequences; all format strings",["src/rt1_model/__init__.py: set_loglevel, _set_logfmt, _ensure_handler"])
p("Selecting the backend takes effect","After set_lambda_backend(name), evaluations return what they return if the same program selects this backend at the start and never changes it.","all call sequences with any calls of set_lambda_backend in between","unbounded histories; memo tables",["src/rt1_model/__init__.py: set_lambda_backend",S+": _Scatter._lambda_func","src/rt1_model/helpers.py: _lambdify",C+": RT1._get_param_funcs, RT1._fnevals"])
p("Energy conservation","If single scattering albedo and soil fraction are between 0 and 1 and the surface (NormBRDF times surface function) reflects at most the incoming energy, then the intensities returned by calc() for all exit directions, weighted with the cosine of the exit angle and summed over the upper hemisphere, are non-negative and at most I0 cos(t_0), in all units and with or without interaction term.","all balanced reciprocal scattering functions, parameter values and incidence directions","integral over a continuum of exit directions",[C+": RT1.calc, RT1._surface, RT1._volume, RT1._interaction"])
p("The interaction contribution converges with ncoefs","For predefined scattering functions and linear combinations of them, the interaction contribution (and the total) returned with ncoefs coefficients converges, as ncoefs grows, to the documented double integral evaluated with the scattering functions themselves, in all units; where the scattering functions are not negative the limit is not negative.","all predefined functions and linear combinations, parameter values, directions","limit over the number of coefficients; double integral over the hemisphere",[C+": RT1._interaction, RT1._calc_Fint_1, RT1._calc_Fint_2",S+": _Scatter._legexpansion"])
p("What the observations determine","With all other inputs fixed, the total returned by calc() grows strictly with omega and with NormBRDF, in all units, with and without interaction term, so that a measured total determines either of them; without interaction term it grows, falls or does not change with tau and with bsf depending only on how NormBRDF times the surface function compares with omega times the phase function divided by the sum of the cosines of the two directions; with interaction term it grows, falls or does not change with bsf depending only on how the total at bsf=1 compares with the total at bsf=0, while the total need not determine tau. Two volume contributions from geometries with different path lengths determine tau and omega together, two surface contributions tau and NormBRDF.","all objects, parameter values, units, pairs of geometries","monotonicity and injectivity on continuous domains",[C+": RT1.calc, RT1._surface, RT1._volume, RT1._interaction, RT1._convert_sig0_db"])
p("Merged docstrings say what the docstrings say together","The docstring that append_numpy_docstring produces, read as a numpydoc docstring, consists of the own summary followed by those of the other docstrings, the remaining opening paragraphs, the own parameters with their own description followed by the first description of every other parameter, and the entries of all other sections, own ones first; nothing is lost, garbled or attributed to another section, whatever the indentation.","all docstrings made of opening paragraphs and sections, any number of docstrings to merge","unbounded texts: tests see single docstrings",[H+": append_numpy_docstring","src/rt1_model/_numpydoc_docscrape.py: NumpyDocString, Reader"])
p("Accuracy of the truncated interaction","For predefined scattering functions other than the cosine lobe and linear combinations of them, the interaction contribution (and the total) returned with ncoefs = n >= 2 coefficients differs from the documented double integral of the scattering functions themselves by at most an explicit amount: for a Henyey-Greenstein function it decreases like (2n+1)|t|^n, isotropic functions and Rayleigh cause no error, and the whole is limited by the attenuation along one path times the absorption along the other.","all predefined functions except CosineLobe and linear combinations, all numbers of coefficients, parameter values, directions","error bound on a continuous domain for every number of coefficients",[C+": RT1._interaction, RT1._calc_Fint_1, RT1._calc_Fint_2",S+": _Scatter._legexpansion",V+": *",F+": *"])
p("Optically thick canopy","As the optical depth grows, the total returned by calc() converges, in all units and geometry modes and with or without interaction term, to the signal of the bare soil fraction plus (1-bsf) I0 omega cos t_0/(cos t_0 + cos t_ex) times the phase function; in linear units it differs from this value by at most an explicit amount that decreases exponentially with the optical depth. Without bare soil the limit does not depend on the surface.","all predefined functions except CosineLobe and linear combinations (any scattering function without interaction term), parameter values, directions","limit over an unbounded parameter",[C+": RT1.calc, RT1._surface, RT1._volume, RT1._interaction"])
p("Small changes of the inputs","Returned contributions change continuously: if angles, intensity, parameters and the parameters of the scattering functions approach values for which the contribution is finite, the returned contributions approach the one returned there, in all units and geometry modes, with or without interaction term. At nadir, where the interaction term is undefined in the implementation, the monostatic values approach the documented contribution; for vanishing optical depth they approach the signal of the bare soil, which is what calc() returns at tau=0. In linear units the total differs from the bare soil signal by at most an explicit multiple of tau/cos t_0 + tau/cos t_ex, and without interaction term it is a weighted mean of the bare soil signal and that of a canopy without end.","all sequences of inputs, predefined functions and linear combinations (any scattering functions without interaction term), units, geometry modes","limits over sequences in a continuous domain; singular points of the implementation",[C+": RT1.calc, RT1._surface, RT1._volume, RT1._interaction, RT1._convert_sig0_db",S+": _Scatter._legexpansion",V+": *",F+": *"])
p("Evaluations have no hidden effect","What an evaluation returns is determined by the settings of the object (everything that can be set or read), not by what has been evaluated before: inserting evaluations without arguments, getters, jacobian calls and clear_cache anywhere into a program, on any objects, leaves every setting and the outcome (array or exception) of every later call unchanged.","all programs and all ways to insert such calls","unbounded histories; memo tables and stored coefficients",[C+": RT1.calc, RT1.surface, RT1.volume, RT1.interaction, RT1.jacobian, RT1._fnevals, RT1.clear_cache"])
p("Objects behave like plain records","A program that creates, changes, evaluates, pickles and clears any number of objects cannot be told apart from the same program on plain records of the settings: a record that setters change, evaluations are functions of, and no other call touches; the list of everything the calls return (arrays, jacobians, names, object identities, exceptions) is the same.","all programs, all numbers of objects","unbounded programs over several objects; memo tables, stored coefficients and shared state",[C+": RT1 (all public methods)",S+": _Scatter._lambda_func"])
p("Changing a scattering function takes effect","After an attribute a, t or i of a scattering function was assigned, its values and its Legendre expansion, and those of every linear combination that contains it, are those of a function created with the current attributes; without assignments a scattering function keeps behaving like the one that was created, whatever was evaluated before, however many functions there are and however they share their parts.","all programs that create, combine, change and evaluate scattering functions","unbounded programs; shared parts and a memo table common to all functions",[S+": _Scatter._lambda_func, _Scatter.calc, _Scatter.legendre_expansion, _LinComb"])

p("The order of settings does not matter","Programs that differ only in the order of keyword arguments, or in the order of consecutive setters of different settings (geometry, parameter values, definition of tau, omega, NormBRDF or bsf, int_Q, sig0, dB, I0; setters of different objects), or in whether parameters are set in one call of update_params or in several, return the same: every call returns the same arrays or raises the same exceptions.","all programs on any number of objects, all orders","unbounded programs, all permutations; stored coefficients that get the parameters by position",[C+": RT1.update_params, RT1.calc, RT1.surface, RT1.volume, RT1.interaction, RT1._fnevals, RT1._calc_Fint_1, RT1._calc_Fint_2, property setters"])
p("3D analyzer frame and rays","All drawn points of a newly created 3D analyzer are within the limits of the axes, which are given by the largest drawn coordinate. The dashed line ends in the direction of specular reflection and the solid line in the direction from which the incident ray comes, both as long as the largest drawn height; the Henyey-Greenstein surface function has its maximum exactly in the direction of the dashed line, the Henyey-Greenstein volume function its extreme value exactly in the direction of the solid line. The analyzer can be created if and only if there is something to draw.","all models, contributions, sample counts, slider positions, asymmetry factors","all grid sizes and models; maximum over a continuum of directions",[P+": Analyze3D._update, Analyze3D._getarrow, Analyze3D._getvals"])
p("Constructors of scattering functions","The constructor of a predefined scattering function or of a linear combination accepts its arguments exactly if only documented arguments are passed, each at most once, a consists of three values, and t (i, choices) is given and of the documented kind; t is between -1 and 1, i is a non-negative integer, ncoefs a positive integer. Otherwise it raises AssertionError (TypeError if the arguments do not fit the signature). The order of keywords does not matter, and the created object returns the textbook values for the numbers, symbols or strings that were passed, combinations the weighted sum of their parts.","all classes, argument lists and values, any number of parts","all combinations and orders of arguments of any type",[V+": *",F+": *",S+": _LinComb.__init__",H+": _parse_sympy_param"])

p("The matrix for least_squares is the Jacobian of the totals","jacobian(names, \"scipy_least_squares\") returns the matrix that scipy.optimize.least_squares expects: its rows belong to the ravelled totals of calc(), its columns to the fitted numbers (one for a parameter that is a number, one per timestamp for a timeseries), and each entry is the derivative of that total of calc() with respect to that number, all other inputs kept.","all objects without interaction term, numbers of timestamps and observations, lists of parameters, values, units","derivatives on a continuous domain; all shapes and lists of parameters",[C+": RT1.jacobian, RT1.calc"])
p("The figure of the hemispherical reflectance shows the returned values","hemreflect() without returnarray draws exactly the numbers that the same call with returnarray=True returns: for every row of the result a line through the points (incidence angle in degrees, number), labelled with the value of NormBRDF it belongs to, and the same points in red if showpoints is set; all drawn numbers lie within the limits of the axes.","all surface functions and objects, parameters, values of NormBRDF, incidence angles","all inputs; several values of NormBRDF",[P+": hemreflect"])
p("Parameters may have any name","How the parameters of a model are called does not matter for the program: evaluating an object never changes what later calls on it or on other objects do because of the names of its parameters, in particular no call fails because of them.","all programs, numbers of objects and names of parameters","all names; effects across objects through the namespace of the module",[C+": RT1._fnevals, RT1.update_params, RT1.calc"])
p("A formula given as text means what it says","After a text was assigned to tau, omega, NormBRDF or bsf, and as long as nothing else is assigned to it, the parameter has, element by element, the value of the formula for the values supplied last for the names in it; if a name has no value a TypeError names exactly the missing ones. A text passed for a parameter of a predefined scattering function or a weight of a linear combination means the value of the formula as well.","all formulas built from names, numbers, arithmetic, powers and elementary functions; all later programs","unbounded formulas and programs; names with a meaning elsewhere",[H+": _parse_sympy_param",C+": RT1._get_param_symbs, RT1._get_param_funcs, RT1._eval_param"])
p("The names of the parameters of scattering functions do not matter","Renaming the parameters of a scattering function consistently, in its definition (own parameter, weights, generalization parameters) and in param_dict, changes nothing: calc() returns the same arrays or raises the same exceptions, hemreflect returns the same, and the Legendre expansion has the same values.","all scattering functions (any nesting of combinations), all renamings that keep different names different and the names of the angles","all names; symbols the implementation uses internally",[S+": _Scatter.calc, _Scatter.legendre_expansion, _LinComb.legendre_expansion",V+": *",F+": *",P+": hemreflect"])
p("The names of the parameters of RT1 objects do not matter","Renaming all parameters of an RT1 object consistently (in the definitions of tau, omega, NormBRDF and bsf, in V and SRF, in param_dict and in the arguments of calls) changes nothing: surface(), volume(), interaction(), calc(), jacobian() and the values of the parameters are the same arrays, or the same exceptions whose messages list the renamed parameters.","all objects in all reachable states, all renamings that keep different names different, the names of the angles and bsf; all arguments","all names and all histories; symbols the implementation uses internally",[C+": RT1.calc, RT1.surface, RT1.volume, RT1.interaction, RT1.update_params, RT1._eval_param",S+": _Scatter.calc"])

p("Quick access to the plot functions","V.polarplot(...) and S.hemreflect(...), called with keyword arguments, draw and evaluate what polarplot(V, ...) and hemreflect(SRF=S, ...) do, for V and S themselves unless another object is given explicitly; R.analyze(...) and R.analyze3d(...) create the analyzer of R with exactly the sliders given as keyword arguments, in this order, and the given or default settings. Positional arguments, unknown keywords and second values for the object raise TypeError, except that a positional argument of S.hemreflect is taken as an RT1 object that replaces S. A parameter of the model called like a parameter of the analyzer can have no slider.","all scattering functions, objects, histories and argument lists","all argument lists and objects",["src/rt1_model/_scatter.py: _Scatter._register_plotfuncs",C+": RT1.analyze, RT1.analyze3d",P+": polarplot, hemreflect, Analyze, Analyze3D"])

p("Polar plots can be read off","In the figure of polarplot(), the lines for an incidence angle, the arrow that shows its direction and its entry in the legend have one colour, for all parameter dictionaries; the legend names the angles, rounded to a tenth of a degree, in the order given, and has an entry for the dashed lines exactly if these are drawn; up to seven incidence angles have different colours. The ticks are labelled with their polar angle in degrees. The ground is drawn for surface functions only.","all scattering functions, lists of incidence angles, parameter dictionaries and settings","any number of incidence angles and dictionaries",[P+": polarplot"])

p("Layout of the analyzers","Every supplied parameter that the model uses has a slider in the figure of an analyzer (none is left out, however many there are), each at a place of its own, in the order given, in two columns without empty rows. The 2D analyzer has a button \"None\" and one button for every slider; the active one is that of the range parameter, and clicking a button selects its parameter. The label of the vertical axis tells in which of the four units (intensity or sigma0, linear or dB) the object was when the analyzer was created.","all models, any number of parameters and columns","any number of sliders",[P+": Analyze._init_figure, Analyze3D._init_figure"])

p("The 3D analyzer shows the current picture only","The axes of the 3D analyzer contain, after any sequence of slider movements, exactly the ground plane, one surface for each requested contribution with the coordinates calculated for the current positions of the sliders, and two rays: nothing is left of earlier pictures, also if callbacks failed in between, and after a failing callback no outdated surface is shown. Surfaces and the lines of the legend have the label and the colour of their contribution, throughout the session; different contributions have different labels and colours. The ground plane is the horizontal square at height zero that spans the axes of the new analyzer; a point of a surface lies above it exactly where the contribution is positive.","all models, contributions, sequences of slider movements (also failing ones) interleaved with any other calls","unbounded sessions; stale artists",[P+": Analyze3D.__init__, Analyze3D._update, Analyze3D._getsurface"])

p("The analyzers show the documented model","What the figures of the analyzers show are the documented values: after every event the lines of the 2D analyzer labelled Surface and Volume hold, at every angle, the documented surface and volume contribution for the values of the sliders, in the units of the object, and the line labelled Total their sum plus the interaction term; a point of a surface in the 3D analyzer lies in the direction of scattering for which the contribution was calculated, at the distance given by the documented contribution, for the incidence angle of its slider.","all models, parameters, sequences of slider movements and selections, all angles and directions","all sessions and values; agreement with the documented formulas",[P+": Analyze._update, Analyze3D._update, Analyze3D._getsurface",C+": RT1.calc"])

if __name__=="__main__":
    with open(os.path.join(os.path.dirname(__file__),"..","properties.jsonl"),"w") as f:
        for q in P_: f.write(json.dumps(q)+"\n")
    print(len(P_))
