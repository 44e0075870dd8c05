# Formal model of rt1_model: design and trusted base

## 1. What is modelled

The code lives in `/repo/src/rt1_model`. Everything a result of `RT1.calc`,
`surface`, `volume`, `interaction` and `jacobian` depends on is modelled,
function by function; each Lean definition cites the file and lines it models and
says where it is simplified.

| Lean module (under `lean/Verif/`) | models |
|---|---|
| `Model/XR.lean` | IEEE-like numbers: finite reals, +inf, -inf, NaN (numpy scalar semantics), `expi`, `expn` |
| `Model/Py.lean` | python exceptions as values (`Py = Except PyErr`) |
| `Model/Arr.lean` | numpy arrays: shape + entries, broadcasting, stacking, sum over axis 0 |
| `Model/Expr.lean` | sympy expressions (`free_symbols`, `diff`, evaluation), dictionaries, `_lambdify` of `helpers.py` for both backends |
| `Model/Scatter.lean` | `_scatter.py`, `volume.py`, `surface.py`: scattering angle, phase functions, Legendre coefficients, expansions, `LinComb` |
| `Model/Fn.lean` | `_calc.py` 815-1065: expansion product, azimuth integration by replacement, coefficient extraction, compiled coefficients |
| `Model/Eval.lean` | the evaluation methods of `_calc.py` (`_surface`, `_volume`, `_interaction`, `calc`, derivatives, `jacobian` as list), generic in what they read from `self` |
| `Model/Jac.lean` | `_calc.py` 1571-1592: layout of the scipy jacobian |
| `Model/State.lean` | RT1 objects as a state machine: attributes, class-level LRU memo tables, exceptions that keep earlier state changes, all public methods, pickling, re-assignment of V and SRF, in-place overwriting of angle arrays |
| `Model/Misc.lean` | backend setting, analyzer slider parsing, 3D analyzer contribution selection, docstring merging |
| `Model/Analyze.lean` | `plot.py`: the widgets `Analyze` and `Analyze3D` as programs on the object: check of symbols, sliders, line data, range overlay, surfaces, limits and lines of the 3D plot, callbacks |
| `Model/PolarPlot.lean` | `plot.py`: `polarplot` up to the lines and arrows handed to matplotlib, with the shapes `plot` and `fill_between` accept |
| `Model/HemReflect.lean` | `plot.py`: `hemreflect` with `returnarray=True`, including scipy's `simps` for equidistant points (both treatments of an even number of points) |
| `Model/HemFigure.lean` | `plot.py`: the figure of `hemreflect`: drawn lines, labels, limit of the vertical axis; which calls matplotlib refuses is part of the model |
| `Model/PolarFigure.lean` | `plot.py` 110, 136-160, 169-250: colours, arrows, legend, ticks, title and ground of the figure of `polarplot`; not line widths, transparency, radial limits and the text of numbers |
| `Model/AnalyzeFigure.lean` | `plot.py` 500-541, 720-763: places of the sliders, radio buttons, label of the vertical axis; not sizes and distances |
| `Model/Figure3D.lean` | `plot.py` 687-688, 714, 799-876: what is drawn on the axes of the 3D analyzer and removed again, labels, colours, legend, ground plane; identities of artists are numbers |
| `Model/QuickPlot.lean` | `_scatter.py` 177-194, `_calc.py` 202-210: the methods `polarplot`, `hemreflect`, `analyze`, `analyze3d`: which parameter of the plot function gets which argument (Python's rules for calls and `functools.partial` are part of the model); arguments of the analyzers of a wrong type are rejected too early (said in the comments) |
| `Model/Names.lean` | `_calc.py`: the names `sp.var` assigns in the namespace of the module (859-862) and the names functions of the module look up there; a relation on top of `Model/State.lean`, about calls that meet an assigned name it only says that they raise if they look it up for sure (`Op.needs`); that `sp.var` assigns global variables of the calling module is knowledge about sympy |
| `Model/Switch.lean` | programs that call `set_lambda_backend` between other calls: every compiled function runs with the backend a `Policy` gives it; `realPolicy` is the one of the code (memoised functions keep their backend) |
| `Model/Live.lean` | `_scatter.py`: scattering functions as objects with identity, assignable attributes `a`, `t`, `i`, shared parts, the memo table of `_lambda_func`, groups formed when a combination is created |
| `Model/SumIndex.lean` | `_scatter.py` 107-147, 272-291: the sum over the symbol `n` with the substitution of the index everywhere in the summand (that `Sum.doit` substitutes every occurrence is knowledge about sympy); the other files use the sums of `Model/Scatter.lean`, equal if no parameter is called `n` (C91) |
| `Model/Parse.lean` | `helpers.py` 7-16: what the names in a text stand for (`_local_variable_symbols`, names of sympy, symbols); the syntax tree of the text is given, of sympy's names only seven are fixed, all others are a parameter of the theorems |
| `Model/Construct.lean` | the constructors of `volume.py`, `surface.py`, `_scatter.py`: assignment of positional and keyword arguments of any type, checks, `_parse_sympy_param`, and the function of `Model/Scatter.lean` that the created object is |
| `Model/Logging.lean` | `__init__.py`: `set_loglevel` with `_ensure_handler`, `_set_logfmt`, and the part of python's `logging` it uses (levels, handlers, validation of `%`-style formats) |
| `Model/Docs.lean` | `helpers.py` 95-170 (`append_numpy_docstring`) and the part of `_numpydoc_docscrape.py` it uses: dedenting, reader, sections, parameter lists, printing, merging. Parameters of the model (`Outside`): `\w`, the parser of See Also sections, index sections |

The evaluation methods are written once, over an interface `Acc m` (what they
read from `self`) in a monad `m`. `Self.acc` reads through the memo tables in the
state monad `M`; `Fresh.acc` (`Spec/Fresh.lean`) recomputes everything from the
attributes. "Memoised = recomputed" is proved for all histories (invariant `Inv`,
`Lemmas/Inv.lean`, `Steps.lean`, `Refine.lean`).

Not modelled: drawing itself (matplotlib
calls, including, except for `polarplot`, the checks matplotlib makes on shapes of lines and surfaces; the model ends with
the data handed over),
the texts of log messages, timing, docs, packaging, `sp.parse_expr` except for the meaning of names (`Model/Parse.lean`). Jacobian entries with more than three
axes in scipy format (timeseries parameters) are an error in the model; which exception scipy raises depends on its version.

## 2. Specifications

`Verif/Spec/*.lean` is written without the model's evaluation code:

| module | content |
|---|---|
| `Spec/Site.lean` | one observation (angles, I0, tau, ..., further parameters) as reals, textbook surface and volume formulas, units; `Observes call cfg x r`: in some reachable state the call returns an array with entry `r` at an index where the getters of the object report the values `x` |
| `Spec/Phase.lean`, `Spec/Calc.lean` | phase functions and the scattering angle as real functions; value returned by `calc` of a scattering object |
| `Spec/Legendre.lean`, `Spec/ExpInt.lean` | Legendre polynomials by Bonnet's recurrence; exponential integrals as integrals |
| `Spec/Interaction.lean` | the documented double integral; `ReachableP` (histories without mode calls given something else than numbers and without pre-computed coefficients), `ObservesP/M/RowP`, `CalcP` |
| `Spec/Sphere.lean` | integrals over the sphere and the upper hemisphere |
| `Spec/Energy.lean` | balanced pairs of phase function and BRDF; radiances of all exit directions summed over the upper hemisphere |
| `Spec/Symmetry.lean` | scattering functions whose own parameters do not use the angle names |
| `Spec/Params.lean` | parameter dictionaries as last-write-wins maps over histories |
| `Spec/Record.lean` | objects as records of their settings, calls as functions on lists of records (the formulas themselves are those of the model, evaluated without memo tables) |
| `Spec/Remembered.lean` | records that also remember the parameter names for which coefficients were compiled |
| `Spec/Order.lean` | calls with keywords in another order, the groups of settings |
| `Spec/Inputs.lean` | which inputs are complete (`Complete`), incomplete (`Unfilled`), missing names |
| `Spec/Jac.lean` | derivative of a signal given in units with inf/nan (`HasXDeriv`), variation of one parameter, smooth definitions |
| `Spec/JacUse.lean` | the places where a name of `param_dict` is used, variation at one place only |
| `Spec/Analyze.lean` | which symbols a model needs, which slider belongs to a tuple, which row to a label; sessions (creation, user events, calls in between); the grid of the 3D analyzer |
| `Spec/Widgets.lean` | the value a slider was last moved to; played sessions with the list of moves |
| `Spec/Limit.lean` | the documented interaction integral with the scattering functions themselves; scattering objects with a growing number of coefficients |
| `Spec/Trunc.lean` | bounds of the predefined functions and of what their truncated expansions leave out; the signal of a canopy without end |
| `Spec/Continuity.lean` | convergent sequences of inputs and of the parameters of scattering functions; the signal of the bare soil and a bound of what a thin canopy changes |
| `Spec/Peek.lean` | settings of an object; calls that only look at objects, programs with such calls inserted |
| `Spec/Docs.lean` | what a docstring says (opening paragraphs, sections), which texts say it, what several docstrings say together |
| `Spec/Switch.lean` | programs with `set_lambda_backend`; "array a can be broadcast to b and has the same entries"; backend of a compiled phase function |
| `Spec/SwitchInt.lean` | backend of compiled coefficients; result of a record whose phase functions and coefficients run with different backends |
| `Spec/Live.lean` | the attributes of a scattering function after a program, the function it stands for (`Means`), the evaluations of a program |
| `Spec/Construct.lean` | which argument lists fit a signature, what arguments stand for, textbook values by class |
| `Spec/HemFigure.lean` | which points a line shows, which numbers lie within the axes, which NormBRDF is used |
| `Spec/Parse.lean` | value of a formula for given values of its names, where it is defined; names that have to be supplied |
| `Spec/ParseScatter.lean` | arguments of constructors that are numbers or formulas |
| `Spec/Rename.lean` | scattering functions and dictionaries with other names for their parameters |
| `Spec/QuickPlot.lean` | which parameter receives which argument of a call |
| `Spec/RenameObj.lean` | RT1 objects and exceptions with other names for the parameters |
| `Spec/Names.lean` | which names a program supplies; programs in which every later call that needs a name raises |
| `Spec/JacMatrix.lean` | one fitted number changed, the total of `calc` at an observation, what a column of the matrix must hold |
| `Spec/Fresh.lean` | evaluation without memo tables (reads the attributes only) |

Helper lemmas are in `Verif/Lemmas`, property theorems `Cnn_...` in `Verif/Props`.
Concrete histories (`Lemmas/Demo*.lean`) are used in `example`s and witness theorems to
show that hypotheses can be met. Theorems of one group share an
`example`; theorems without hypotheses (witnesses, tables) have none.

Layers of a typical proof: T1 memoised result = recomputed result; T2 array result
-> value at one index (`PW`); T3 inf/nan-arithmetic -> real arithmetic (`FSite`);
T4 real analysis.

## 3. Trusted base

* Lean 4.33.0's kernel; the Mathlib definitions used in the statements (reals,
  interval integrals, derivatives, polynomials).
* Axioms: every property theorem depends on at most `propext`,
  `Classical.choice`, `Quot.sound` (checked with `#print axioms`, see
  `lean/Verif/Audit.lean`). No own axioms, no `sorry`, no `native_decide`.
* The transcription python -> Lean. It was written by reading the source (line
  references in comments). It was never compared with a running program, since the
  code cannot be run here, and nobody else has reviewed it. Wrong programs
  (section 6) test the theorems, not the transcription.
* Idealisations of the runtime:
  * float64 is replaced by `XR` = real numbers plus inf/-inf/nan. Rounding is
    not modelled; zero is unsigned (a zero divisor counts as +0).
  * sympy/symengine are replaced by their algebraic meaning: expanding does not
    change values, `xreplace` substitutes whole powers of the atoms
    sin/cos(theta_s), sin/cos(phi_s), `lambdify` evaluates the expression at the
    argument values, `diff` does not simplify, and the symbols of an expression are those written in it (sympy drops
    terms with factor 0, so its expressions can have fewer). String parsing (`sp.parse_expr`) is
    not modelled, except for the meaning of names in a given syntax tree (`Model/Parse.lean`): a string
    definition is represented by the expression it parses to.
  * scipy's `expi`/`expn` are the mathematical functions Ei and E_n.
  * Of logging only `set_loglevel` is modelled (C72), of the docstrings only their merging (C77), of
    plotting the computations described below; messages, timing, drawing with matplotlib and packaging
    are not modelled.
  * In all theorems except C17_switching_* and C73 a history uses one backend. In
    `Model/Switch.lean` two scattering objects with equal definitions share their compiled
    functions, and user-supplied compiled coefficients run with the current backend.
  * Attributes with a leading underscore are assumed not to be touched by users.
    Assigning attributes of `V`/`SRF` objects is modelled for programs on scattering functions
    only (`Model/Live.lean`, C83), not together with RT1 objects; re-assigning `R.V`,
    `R.SRF` is (`ReachableAny`; `Reachable` excludes it and in-place overwriting).
  * The empty linear combination has the constant expression 0; in the code it is a python integer
    without `free_symbols`, so sympy evaluations that fail otherwise fail with another exception.
  * Parameters named like an angle symbol (`theta_0`, ...) are excluded where
    stated.
  * `functools.lru_cache` keeps its objects alive, so object numbers are not reused.

## 4. Properties and how they are treated

"neg" means the property is false of the code: the negation is proved with a
concrete witness (theorems `..._counterexample`, `..._negation`, `..._nan`,
`..._fails`, `..._stale`, `..._lost`), and the part that holds is proved with suffix
`_partial`. Exact theorem names and what is missing: `MANIFEST.json`.

| id | treatment |
|---|---|
| C01 | invariant: every memo entry equals recomputation, preserved by every operation; hence evaluation with memo tables = evaluation with empty tables |
| C02 | neg: the caller overwrites its array, witness history with stale cosine, general form `C02_stale`; partial: after a mode or geometry call results agree with the reported angles again |
| C03 | invariant over all histories |
| C04 | invariant + error branch of set_geometry |
| C05 | decision logic of set_geometry, state unchanged |
| C06 | neg: set_geometry with a bad second keyword; set_monostatic with a bad angle; partial: the rejected-up-front cases are atomic |
| C07 | induction over histories against an abstract finite map |
| C08 | memo invariant for parameter functions and symbols |
| C09 | refinement: calc(p) = update_params(p); calc(); idempotence via memo invariant |
| C10 | partial: operations on object i leave the attributes of j and the results of its getters, calc, surface, volume and interaction unchanged; successful jacobians agree; neg: a failing jacobian can succeed after calls on another object |
| C11 | invariant: compiled argument names are a prefix of the current key order; positional binding = binding by name |
| C12 | neg: a new name after the coefficients were compiled raises; partial: surface, volume, calc without interaction; jacobian: neg for sympy in general form, partial for symengine and builtin names |
| C13 | memo invariant for the coefficient cache |
| C14 | neg: stale coefficients after `R.V = ...`; partial: always for surface and volume, interaction after the next mode call |
| C15 | neg: missing V/SRF names give NameError (sympy) / RuntimeError (symengine), surface() names those of tau only; partial: calc with missing names of tau/omega/NormBRDF/bsf |
| C16 | neg (plot methods lost on the pickled object); partial: numerical results survive |
| C17 | value equality of both lambdify models; error branch of set_lambda_backend; neg: symengine broadcasts unused parameters; simulation for programs that switch |
| C18-C20, C22-C24 | pointwise evaluation equals real-valued formula, then algebra; the interaction only for directions strictly between nadir and horizon |
| C21 | both code paths; neg: a second NaN (nadir) blocks the replacement, interaction() is NaN; partial: all other angles off-nadir |
| C25 | XR semantics of log10 |
| C26, C27 | real analysis of the formulas |
| C28 | symmetry of the formulas incl. interaction (all angles dynamic); neg with angles fixed by set_bistatic |
| C29, C30 | trigonometry |
| C31 | surface/volume proved; interaction neg: bistatic expansion uses phi_ex+pi (witness anisotropic surface); partial: azimuth-independent surface |
| C32 | surface/volume proved; interaction neg for bistatic with fixed t_0; partial: monostatic fixed p_0 |
| C33, C34, C48 | polynomial model of the symbolic pipeline; correctness of replacement vs. interval integrals for all ncoefs |
| C35 | E_n and Ei as integrals; ODE argument in tau for the base case, recursion in n |
| C36 | combination of C33 and C35; neg for bistatic objects |
| C37 | positivity of the kernel |
| C38 | neg at nadir; partial: 0 < cos < 1 |
| C39, C40 | explicit antiderivatives; C40 partial: HG_nadirnorm only for t and a[0] non-zero |
| C41 | polynomial identities |
| C42 | Legendre generating function via binomial series; Cauchy products; cosine lobes: orthogonality and completeness of the Legendre polynomials (Weierstrass), Kummer's test for the coefficients; partial: HG_nadirnorm only for t and a[0] non-zero; neg for CosineLobe(0) |
| C43 | moments recursion; neg for i = 0; partial: i >= 1 |
| C44, C45 | elementary inequalities; neg: HG_nadirnorm is NaN for t = 0 or a[0] = 0 |
| C46, C47 | induction over the list of parts; C47 neg for different ncoefs and nested combinations, partial: vanishing higher coefficients |
| C49-C52 | HasDerivAt statements; C49 partial (linear sigma0 only for I0 = 1); C50, C51, C52 neg with partial versions |
| C53 | list/matrix model; neg: timeseries omega with one incidence angle (sympy), timeseries with three axes |
| C54 | decision logic |
| C55-C57 | array model; C56 and C57 neg with partial versions |
| C58 | model of ncoefs errors |
| C59 | neg for negative tau, partial for tau > 0 (off nadir) and tau = 0 |
| C60 | decision logic of the accessors |
| C61 | neg (half range instead of centre); partial: explicit start value |
| C62 | index table + state restoration; partial: the total lacks the interaction if it is not displayed |
| C63 | list model of the merge |
| C64 | decision logic of the check; success by induction over the events; partial: see manifest |
| C65 | invariant over sessions (labels follow int_Q); neg: int_Q switched on in between; partial otherwise |
| C66 | array model: stacking a range axis = evaluating 20 times, also with interaction term where no tau is negative; neg: only omega has a slider (sympy); partial |
| C67 | neg with range parameter, partial without |
| C68 | invariant over sessions (exit angles stay on the grid), array model |
| C69 | frame statement for creation and every event, also failing ones |
| C70 | array model of the integrand, error bound of Simpson's rule from uniform continuity, Fubini; neg: sympy and no azimuth in the surface function, one-dimensional arrays; partial |
| C71 | expansion independent of unused symbols, array model of `calc` along the grid, C41/C42 for the dashed line; neg: sympy and no exit angle, nested combinations; partial; arrays: one element per drawn direction |
| C72 | invariant over all call sequences (at most one handler, the remembered one); matcher for the fields of a format; neg: notset, short name "basic"; partial |
| C73 | simulation between the program with switches and the one without, invariant over histories for every policy; exact value of interaction and calc by an invariant about the backend of every compiled function; neg: compiled functions keep their backend; partial |
| C74 | energy balance of the documented formulas (bounds of the attenuation, Fubini, reciprocity), transferred to `calc` for all exit directions; with interaction term exact for functions equal to their expansions, in the limit and up to an explicit multiple of the truncation errors for the others; counterexample: HenyeyGreenstein surface; partial |
| C75 | absolute summability of the Legendre series (Legendre completeness for cosine lobes), dominated convergence for the double integral, continuity of the units; partial |
| C76 | closed forms of the contributions (C18–C20), strict monotonicity of exp, of the units and of (1-exp(-a t))/(1-exp(-b t)); intermediate values of the interaction term for the ambiguity of tau; two counterexamples |
| C77 | characterisation of texts by their paragraphs; reader and printer are inverse to it; neg: References/Examples; partial |
| C78 | geometric tails of the Legendre series, bound of the double integral by 2 pi (1 - exp(-tau/mu)) times the largest value, uniform limits for continuity; partial |
| C79 | closed forms of surface and volume (C18, C19), the same bound of the double integral in every geometry mode |
| C80 | closed forms and the value of the interaction term in every geometry mode (C36), dominated convergence of the double integral in all inputs at once |
| C81 | results of the memo-free evaluation depend on the settings only (stored coefficients that are accepted are those of the settings), inserted calls change no setting; partial for the interaction term, false in full |
| C82 | a second machine (`Spec/Record.lean`: lists of records of settings, evaluations are functions of a record) and a simulation by induction over programs: equal settings, equal answers; with interaction term the answers are exactly those of records that also remember the names of the parameters for which the coefficients were compiled (`Spec/Remembered.lean`), which is what makes the claim false in full |
| C83 | programs on scattering objects: an entry of the memo table was compiled from what its object stood for at an earlier evaluation with the same names (induction over programs); a stored entry is found again as long as fewer than 128 other keys were used; groups made at creation agree with the current `a` if no part is assigned a new one; false in full |
| C84 | records that list the same parameters in another order give the same values (arguments of compiled functions by name; coefficients compiled for a permuted list of names get permuted values), induction over programs on the records of C82; neighbouring setters commute, induction over permutations; false with `fnevals_input` |
| C85 | largest and smallest entries of lists of numbers and nan; explicit coordinates of the drawn points (C68); the scattering angle as scalar product of unit vectors, equality case of Cauchy-Schwarz, strict monotonicity of the Henyey-Greenstein function; false for heights and for rows without numbers |
| C86 | iff-characterisation of every step of a constructor; lookup in keyword lists is invariant under permutation; values by C42-C46; false for the ranges of `t` and `ncoefs` |
| C87 | composition of C49/C52 (values), C53 (layout) and C57 (success of `calc`): the site after `update_params` of one changed number is the varied site of C52; false for tau, repeated names and `I0 != 1` (C50-C53) |
| C88 | the figure is drawn from the array of C70; neg: limit of the axis for several values of NormBRDF, parameters given as arrays; partial |
| C89 | invariant: only names of parameters are assigned, induction over executions of a relation; neg: names the module needs; partial |
| C90 | induction over the formula, C08; neg: names sympy defines as numbers (`E`); partial |
| C91 | equivariance of phase functions, compiled functions and expansions under renaming, by induction over expressions and parts; neg: a parameter called like the summation index `n`; partial |
| C92 | equivariance of the evaluation without memo tables under renaming (exceptions with renamed messages), carried to the memoised evaluation by the refinement; the coefficients of the interaction term by a ring homomorphism on the symbolic coefficients; partial |
| C93 | the assignment of arguments is characterised parameter by parameter (C93_arguments); the methods are calls of the functions with one more keyword; with C64: parameters that can have no slider |
| C94 | one assignment of colours to incidence angles for lines, arrows and legend (itertools.cycle by induction); rounding to tenths; neg: the tick of 135 degrees; partial otherwise |
| C95 | the truncating loop over sliders and cells is shown to leave out nothing (rounding up for any number of columns); with C64 for the names; neg: a parameter called None |
| C96 | invariant by induction over sessions with failing callbacks and arbitrary states in between: exactly the artists remembered by the analyzer follow the ground plane; with C68, C85 for coordinates and limits |
| C97 | corollary: row of the figure = row of calc() (C65, C68), row of calc() = documented contribution (C01 ff.); the site in the 3D case is the direction of the grid; partial, see MANIFEST |

## 5. Defects of the code found on the way

1. `_dvolume_dtau` divides by `mu_ex**-1` (C50). 2. The jacobian in linear sigma0
units lacks `/ I0` (C51). 3. The chain rule for custom parameters follows only the
first definition that uses the name, and never tau for the surface (C52). 4. Bistatic
interaction uses `phi_ex + pi` (C31, C36). 5. Fixed bistatic angles are not exchanged in
the second interaction path (C28, C32). 6. Coefficients are compiled for the parameter
names known at the first evaluation (C12). 7. NaN at nadir (C38) and its effect on
tau = 0 rows (C21). 8. In-place changes of angle arrays give stale cosines (C02).
9. Setters are not atomic (C06). 10. Pickling destroys the plot methods (C16).
11. Missing V/SRF parameters are not reported by name (C15). 12. CosineLobe(0)
coefficients (C43); its expansion is half of the function at right scattering angles (C42). 13. HG_nadirnorm at t = 0 (C44). 14. LinComb groups use the largest
ncoefs of the group for all parts (C47), nested combinations raise. 15. Arrays with two
axes break the interaction term (C56, C57). 16. `calc` fails if a parameter has a larger
shape than t_0 (C57). 17. symengine broadcasts unused parameters (C17). 18. Slider default
is half the width of the range (C61). 19. scipy layout of timeseries parameters with one
incidence angle (C53). 20. Negative numbers assigned to tau (C59). 21. The jacobian
with respect to a custom name raises after a further parameter was added (sympy, C12), and
then depends on what other objects do to the shared memo tables (error or success, never a
different value, C10). 22. Analyzer with int_Q, isotropic V and SRF and the sympy backend
raises at creation (two-axis angles, see 15, C64). 23. The analyzer accepts definitions that use an
angle symbol, their evaluation then fails (C64). 24. Range overlay if no slider affects tau or bsf
(sympy, C66). 25. A range parameter leaves arrays of 20 values in the object (C67). 26. int_Q
switched while the analyzer is open: lines with wrong labels or stale lines (C65). 27. The 3D
analyzer never passes the value of a parameter named "inc" (C64); it leaves dB switched off (C69).
28. `hemreflect` raises for surface functions without azimuth, e.g. Isotropic (sympy, C70). 29. `hemreflect(R=R)`
ignores the parameters of the object except NormBRDF, and ignores symbols of NormBRDF in `param_dict` (C70,
by reading: the value of `R.NormBRDF` never has `free_symbols`). 30. `hemreflect` imports `simps`, which current scipy
no longer has (by reading, not modelled). 31. `polarplot` raises for functions without exit angle, e.g. Isotropic (sympy),
and for nested combinations unless `aprox=False` (C71). 32. `polarplot` documents tuples for `V_SRF`, but raises
AttributeError for them (plot.py 120; model `polarplot`). 33. `set_loglevel` documents the short name "basic", which
does not exist (it is "minimal"): ValueError after the level was changed (C72). 34. `set_loglevel("notset")` does not show
all messages, the level of python's root logger decides (C72). 35. The documented default format of `set_loglevel` is not
the one used ("timed", by reading). 36. `set_lambda_backend` has no effect on functions that have been compiled:
a model that fails with symengine still fails after switching to sympy (C73). 37. The HenyeyGreenstein surface
function is not normalised: with NormBRDF = 1 and t = 3/4 it reflects 28/9 of the energy that comes in from nadir (C74).
38. `append_numpy_docstring` adds a string to a list for References and Examples (helpers.py 134-136); the exception is
swallowed and nothing is merged (C77). 39. The scipy jacobian of observations with three axes has too few rows
if a parameter is a timeseries (C53). 40. With int_Q = False `interaction()` raises TypeError, unless it was evaluated
before int_Q was switched off (C81). 41. Assigning an attribute of a scattering function (`a`, `t`, `i`) has no effect on its
values for parameter names that were used before, because `_lambda_func` is memoised per object and names (C83). 42. A linear
combination groups its parts by `a` when it is created: after `a` of a part is assigned, its phase function uses the new and
its expansion the old one (C83). 43. With `fnevals_input`, parameters are passed to the coefficients by position in the order in
which they were first set on this object: a program with its keywords in another order gets another interaction term (C84). The order of
keywords also matters for calls of `set_geometry` that are refused, because of 9 (C84). 44. The 3D analyzer raises ValueError when it is
created if the values to draw are all nan or some is infinite, because they become limits of the axes (C85; that matplotlib refuses
such limits is part of the model). 45. The limits of the vertical axis ignore the heights, the top of the surfaces may be cut off (C85).
46. The range of `t` and `ncoefs` are not checked by the constructors: `HenyeyGreenstein(t=2)` is negative everywhere, `ncoefs=0` fails
when the function is expanded (C86). 47. `volume.LinComb` accepts surface functions (and vice versa), and the keyword `ncoefs` of linear
combinations has no effect (C86). 48. The upper limit of the figure of `hemreflect` is computed from the last row of the result (the
loop over the rows binds `sol` again, plot.py 377 and 389), so lines for larger values of NormBRDF are cut off (C88); the function
returns None, not the figure as documented (read off the source, no theorem). 49. `sp.var` assigns the names of all parameters to global
variables of `_calc.py` when the coefficients of the interaction term are compiled (_calc.py 859): a parameter called like a name the
module needs (`np`, `sp`, `range`, ...) breaks all objects of the program for good (C89). 50. Only `N` is protected when texts are parsed
(helpers.py 7): a parameter called like another name of sympy is not a parameter, e.g. after `R.tau = "E"` the value supplied for `E` is
ignored without a message (C90). 51. The summation index of Legendre expansions is the symbol `n`: a parameter called `n` (e.g.
`HenyeyGreenstein(t="n", ncoefs=5)`) is replaced by the index, so that the interaction term and the approximation in `polarplot` ignore
its value, while `calc` uses it (C91). 52. `V.polarplot` is `partial(polarplot, V_SRF=V)`, but `V_SRF` is the first parameter: every
positional argument (`V.polarplot([30.0])`) raises TypeError; the first positional argument of `S.hemreflect` is taken as the RT1 object
that replaces `S` (C93). 53. Parameters of the model called `R`, `self` or `range_parameter` (3D: `samples`, `contributions`) can have no
slider in the analyzers; if they have no value, no analyzer can be created (C93). The documented default of `samples` is 50, the actual one 35
(C93_analyze3d). 54. The figure of `hemreflect` takes the rows of a two-dimensional result for values of NormBRDF: with parameters given
as arrays of shape `(m, 1, 1)` (which `returnarray=True` accepts) it raises, or draws the numbers of one incidence angle as a line if `m` is
the number of incidence angles (C88). 55. The polar axis of `polarplot` is labelled `135°` at 125 degrees (plot.py 192; C94). From the eighth
incidence angle on colours repeat, so that legend entries are ambiguous (C94_distinct). 56. A parameter called `None` cannot be
selected as range parameter of the 2D analyzer (C95_none_negation).

## 6. Wrong programs

`seeded/mutants.py` lists edits of the model, `seeded/mutate.py` applies one of them in a
scratch copy, replaces proofs that fail by `sorry` so that the build goes on, and lists
the property theorems that then depend on `sorryAx`. The runs are in progress; each finished
attempt gets a line in `seeded/LOG.jsonl`, edits without a line there have not been tried.
Later runs rebuild only part of the property modules (to save time), so that the lists of
failing theorems of these attempts are incomplete.

A listed theorem is one whose proof no longer checks, directly or through a shared lemma. That
does not show that its statement became false: a proof may break only because it follows the
text of the definition. What an attempt can show is the opposite case, a theorem that still
checks although its claim is false; the field `unnoticed` names the properties for which that
happened.
