# Formal model of cvxgrp/optimization_via_circuits in Lean 4

Source: `/repo` (python, pinned commit).  Model and proofs: `/verif/lean/Verif`.
Build: `cd lean && lake build`.  Claims: `MANIFEST.json`.  Axioms of every claimed theorem: `AXIOMS.md`.
Wrong programs tried against the theorems: `seeded/LOG.jsonl`.

## 1. Shape of the model

The package turns a circuit into a performance-estimation problem and asks a solver for a certificate
that a discretized algorithm decreases an energy.  The model follows the code in layers:

| layer | Lean modules | python |
|---|---|---|
| scalars: SymPy polynomials as an AST; `sp.simplify`, `==`, `sp.Poly` as an abstract CAS with a contract; one concrete CAS | `Model/Sym`, `Model/RefCAS` | sympy (external) |
| python dictionaries as insertion-ordered association lists | `Model/Dict` | `sympy_parsing.py` 137-168 |
| heap of Point / Expression / Function objects, class counters, exceptions as values | `Model/Heap`, `Model/PointExpr`, `Model/Function` | `point.py`, `expression.py`, `function.py` |
| API programs: finite sequences of API calls | `Model/Program`, `Model/Build` | user scripts, circuit builders |
| evaluation of points, expressions, constraints | `Model/Eval` | `point.py` 75-84, `expression.py` 77-97, `constraint.py` |
| problem object and symbolic matrices | `Model/Problem` | `circuit_opt.py` 18-160 |
| polynomial parsing, coefficient matrices | `Model/Parsing`, `Model/Linear` | `sympy_parsing.py` 6-134 |
| comparison of expressions and arrays, degree checks | `Model/Compare` | `sympy_parsing.py` 171-286 |
| direct nonlinear program | `Model/Casadi` | `sympy_to_solvers.py` 13-113, `circuit_opt.py` 163-262 |
| QCQP and matrix QCQP | `Model/Qcqp`, `Model/Arrays` | `circuit_opt.py` 265-501, `utils.py` 33-113 |
| fixed-parameter SDP, relaxation, halving search | `Model/Sdp` | `extra_methods.py` 17-250 |
| Gurobi formulation | `Model/Gurobi`, `Model/GurobiReport` | `extra_methods.py` 253-352, `sympy_to_solvers.py` 176-240 |
| dispatch and returned values | `Model/Dispatch` | `circuit_opt.py` 509-519, 245-262, `utils.py` 156-165 |
| circuits | `Model/Circuits`, `Model/CircuitsDec`, `Model/CircuitsN` | `classical_central_vi.py`, `classical_decentral_vi.py`, `new_algorithms_vi.py` |
| numerical methods, graphs, example problems | `Model/Discretized`, `Model/Graph`, `Model/OptProblems`, `Model/DataGen` | `discretized_methods.py`, `opt_problems/*.py` |
| remaining helpers | `Model/Utils`, `Model/Cholesky` | `utils.py` |

`Spec/*` contains the independent specification: what a Point/Expression denotes, what a function of a class is,
what a sample (x, subgradient, value) of a function is, what an execution of an API program on real vectors is, what a certificate is.
`Props/*` contains the property theorems `Cnn_*` with non-vacuity examples beside them.  `Proofs/*` contains helper lemmas.

### Modelling decisions

* Python numbers and floats are exact rationals; solver values are exact reals.  No rounding, NaN or infinity
  (`L = inf` is `none`).  In the numerical methods vectors live in an arbitrary real vector space (inner product space where norms occur).
* A SymPy scalar is a polynomial AST over rationals.  Division of or by symbols is not modelled (the code only
  divides by numbers; reciprocals of parameters are separate symbols `invC`).  `sp.simplify`, python `==` on scalars and
  `sp.Poly` are fields of a structure `CAS`; theorems hold for every CAS satisfying `CAS.Lawful`
  (simplify keeps the value and adds no symbol; `==` is reflexive and implies equal values; `Poly` returns distinct
  monomials over the symbols of the expression whose sum has the value of the expression, and no term for the zero polynomial).
  A concrete lawful CAS is constructed (`refCAS_lawful`), so the contract is satisfiable, and all examples run on it.
  The contract idealises SymPy: real `sp.simplify` may fail to recognise an exotic zero, but on polynomials with rational coefficients it does not.
* `float(sp.simplify(w))` is the number itself, 0 for an expression that is not a number where the code cannot reach that case.
* Objects live in a heap and are referred to by identity, because `add_point` mutates (prunes) the dictionaries
  of objects the caller still holds and because constraints are compared by identity.
* Errors (AssertionError, TypeError, KeyError, IndexError, ValueError, ZeroDivisionError, RecursionError, NotImplementedError,
  NameError/UnboundLocalError, AttributeError) are values of type `Err`.
* Recursion oracle/add_point is bounded by a fuel argument standing for python's recursion limit.
* External solvers are parameters: a solver result is any assignment satisfying the constraints that were built, or a failure.
* External linear algebra has contracts: `np.linalg.svd` / `eigh` return some orthonormal decomposition, `np.linalg.solve` a solution.
* In the discretized methods a division by zero of the iteration itself raises `ZeroDivisionError` where python does (integer degree) and
  is excluded or made explicit by a hypothesis where numpy would return NaN.
* A function of a declared class is `CFun E`: a value and a subgradient relation on an arbitrary real inner product space `E`, with the
  defining inequalities of the class.  `Instance prog fs` says that `fs` are functions of the classes the program declares.
* PEPit mode (`params is not None`): the calls, the keys and the classes of the objects are modelled (C73); PEPit itself is external, its answer is the supremum it documents.
* An objective that contains a product of parameters that is not in the QCQP table raises `KeyError` in the model; the code extends the table
  (theorems about the QCQP objective assume the product is in the table or the objective is linear).

## 2. Plan per property

| id | what is modelled | how it is proved |
|---|---|---|
| C01-C03 | heap operations of Point and Expression | denotation lemmas for merge/prune/multiply, for every CAS |
| C04 | heap invariant `WF` | induction over API programs |
| C05, C06 | `oracle` with cache | case analysis of the cache lookup; induction over later calls for monotonicity |
| C07-C09 | `add_point`, `stationary_point`, `proximal_step` | loop invariants |
| C10 | `add_class_constraints` and the index loop | list induction, bijection of the (i,j) loop with the constraint list |
| C11 | classes as sets of functions on inner product spaces | real analysis (descent lemma, cocoercivity) |
| C12 | `define_function` | case analysis |
| C13, C14 | `_expression_to_matrix` | fold invariant; concrete counterexample for the dropped constant |
| C15-C17 | `circuit_symbolic_matrices` | loop invariants; C16 by counting |
| C18, C19 | `sp_v_coeff_matrix` | invariant over monomials / entries / matrices |
| C20, C21 | string names | join/split and decimal encoding lemmas |
| C22 | `ca_linearize_monomial` and converters with an explicit NLP state | invariant over the variable table |
| C23-C25 | packing | sums over ranges, induction on n |
| C26-C29 | solver formulations as constraint systems | weak duality; equivalence of the constraint systems by explicit packing |
| C30 | relaxation | lifting X = xx^T |
| C31 | halving loop | induction on iterations |
| C32 | real executions of API programs | simulation, induction over the program |
| C34 | circuits as API programs | C26 + C32 + evaluation of the program; exact certificates checked by the kernel |
| C33 | runs of the discretized methods from a feasible point | C34 in every step, telescoping; the dissipation tends to zero and controls gaps, node differences and (for strongly convex functions) distances |
| C35 | circuits with n functions | induction on n, counterexample for admm_consensus |
| C36-C38, C41 | bounds, dispatch, degree check, reciprocals | case analysis and counterexamples |
| C39 | `eval` methods | induction over the heap; no reachable heap stores a value |
| C40 | several problems in one interpreter | simulation between a fresh heap and the heap with history; counterexample for the older problem |
| C42-C45 | numerical methods over an arbitrary real vector space | induction over iterations |
| C46, C47, C49 | example problems, utils | finite sums, convexity, linear algebra |
| C48, C50 | utils, parsing | list induction; coefficients of multivariate polynomials |
| C51 | `solve_gp` | string lemmas; two valuations that differ in one multiplier; the rest by comparison with the CasADi conversion and weak duality |
| C52 | convergence of dadmm, cir_dadmm and cir_dadmm_c over real inner product spaces; sharpness of the bound | energy identity summed over edges, with the capacitor edge weighted by C/(2h); a flow on the connected network carries the optimal subgradients; two-node counterexample |
| C53 | convergence of pg_extra and pg_extra_par_c over real inner product spaces | one closed form for both variants; energy decrease with the weighted graph Laplacian; a weighted flow carries the optimal subgradients |
| C54 | the two loops of dadmm and pg_extra | induction on the iteration count |
| C55 | the example solvers | C47 (prox), C46 (weights) and C53; a counterexample for equal data (division by zero) |
| C56 | `Minner`, `Mnorm`, `pg_extra_compressed_sensing` | the recorded quantity is the metric of C53's fixed-point operator |
| C57 | `problem.obj` | the run of a script is simulated with and without the assignment; the solvers' objective is the value of the assigned polynomial |
| C58 | `linear_matrix_expr_to_coeff_matrix`, `coeff_matrix_to_linear_matrix_expr` | round trips by coefficients of linear polynomials |
| C59 | `cholseky_matrix` | linear algebra over an arbitrary eigendecomposition and QR decomposition |
| C60 | the returned lists of all numerical methods | the lists are maps over the iterations of one state sequence that does not depend on the number of iterations |
| C61 | `data_generation` of the four example problems; the random draws are parameters | linear algebra; then C55 and C47 with the established hypotheses |
| C62 | the quadratic program of `decentr_qp.py` with the operators of its notebook | C61 gives the gradients and their Lipschitz bound, C47 the proximal operators, a strictly feasible point the optimality condition; then C53; existence by coercivity, uniqueness by the midpoint |
| C63 | the construction of the two nonlinear programs, all error cases | every symbol of the dual equations is a variable with at most one multiplier per monomial (coefficients of the sum, by the law of `poly`); every lookup of the QCQP succeeds by C19 |
| C64 | weak duality with a bound instead of equality of the constraints; the program of `dgd_line3` | duality with the multipliers as bound; for `dgd_line3` linear functions with slopes 0, 1, 0 and a starting point far away violate the constraint by a fixed amount and the metric by any amount |
| C65 | `set_initial` in the three nonlinear formulations, with the keyword each of them reads | the loop over the initial values writes disjoint entries; the constraints read only variables of the dictionary, so a feasible point passed back is a feasible start |
| C66 | the inequalities of the classes (`FnClass.lhs`), functions as convex sets with values | from the inequalities build the function: a maximum of affine functions, for smooth classes the infimal convolution of the conjugate data with a quadratic, plus the strong convexity quadratic |
| C67 | standard programs (`Spec/Standard`): sums of functions have positive coefficients and are used only for stationary points | induction over the program keeps, for every sample of a sum, samples of its leaf functions at the same point that add up to it; C66 gives the functions; the script is replayed with them |
| C68 | strict feasibility (`Spec/Strict`), certificates (`Spec/Dual`), guarantees (`Spec/Guaranteed`) | conic duality: if no multipliers exist, separation (`Proofs/Strong`) gives a Gram matrix and values with positive metric; factoring it gives leaf values in ℝⁿ; C66 and C67 turn them into functions and a run; C26 links multipliers with the nonlinear program |
| C69 | the ten circuits' programs; their energy inequalities written out (`GradientFlowStep` …); points of evaluation of a program (`Spec/Calls`) | a run on ℝ with a quadratic whose curvature is strictly inside the class is strictly feasible if it evaluates the function at different points (`Proofs/Slater`); curvature and start are chosen outside the roots of finitely many polynomials (`Proofs/SlaterRun`); then C68 and C63. Circuits with equality constraints are never strictly feasible. For Douglas-Rachford and Davis-Yin splitting with smooth functions every run satisfies the constraint, so it can be given multiplier 0 and the argument needs strictness only for the other constraints (`Proofs/CompleteEq`); here no parameter value has to be excluded. Circuits whose equality constraints restrict the runs (the decentralized ones), and those that evaluate a nonsmooth function twice at a point, are not covered. The proximal gradient circuit evaluates its smooth function twice at the solution; `Proofs/Repeat` shows that this costs nothing for a differentiable class |
| C70 | the gradient flow circuit with `beta = 1` | C69 reduces feasibility to the energy inequality; sufficiency from cocoercivity, necessity from a function that is quadratic and then linear (`Proofs/Hub`), with large and small slope |
| C71 | the proximal point circuit with `beta = 1` | C69 reduces feasibility to the energy inequality; sufficiency from monotonicity of the subgradient, necessity from `c\|x\|` with large `c`; the QCQP by C27 |
| C72 | the reference functions as convex problems handed to an arbitrary solver; the stacking `np.repeat(..).reshape(..).T` entry by entry | the loop is a sum (induction), so a solution of the problem is a minimiser in the sense of C55/C62; existence by coercivity; agreement with the closed forms by uniqueness (C47) |
| C73 | every circuit as a call (`Circuit`), the keys it reads, the package (ciropt or PEPit) of every object it makes, and PEPit's answer as a supremum over real runs | the calls read only the keys (a logic of the builders, by induction over loops); all objects are PEPit's if the run in ciropt mode succeeds, except `subgrad_conjugate`; worst case: the zero run and scaling by a factor give 0 or infinity; certificates by C26, C27, C37, exactness by C68, closed form by C70 |
| C74 | the program of README.md as an API history, its algorithm as a relation between sequences | C69's method reduces feasibility to the energy inequality; the energy balance of a step is an identity with a sum of squares; necessity from `c\|x\|`; convergence by the energy as Lyapunov function, with a strictly positive quadratic form if `h < 2RC/3`; oscillation by an explicit run on `2\|x\|` |
| C75 | the printed sizes (`Model/Sizes.lean`) | invariants of the state under `newVar` through all conversion loops (`Closed`); the QCQP by C27, since a packed vector is determined by its first `x_size` entries |
| C76 | what `solve_sdp_relax` returns (`Model/RelaxReport.lean`) | evaluation of the report loop; the bound by C30 and the value of the objective at any point, which needs that the terms of `sp.Poly(goal)` are those of the polynomial; the counterexample is one feasible point `X = x xᵀ + 10 d dᵀ`, checked by the kernel, and gradient descent on `x²` |
| C77 | the construction of the semidefinite programs, the halving search and the matrix QCQP, all error cases | as C63: the matrices by `translate_ok`, the coefficient table by C18, every monomial of the table is a product of parameters (`TableClosed`), so every lookup succeeds; conversely each assertion and index error |
| C78 | the feasible set of the nonlinear programs of the gradient flow circuits, primal and dual decomposition (no new definitions) | upper bounds: soundness (C34) on one quadratic run for every curvature inside the class, then the limit to the boundary; attainment: the exactness theorems (C69, C79) at one parameter choice, with the classical proof of the decrease; without smoothness runs on quadratics of growing curvature |
| C79 | circuits built by loops over `n` functions: the calls, registers and samples for every `n` | a program logic `Trk` that follows which register each call of a builder returns (all `n`), a logic `EnsN` for the values and samples of the declared functions over all runs, and the strong duality argument of C69 at one generic quadratic run. `dual_decomposition` asks each function twice at the minimizer; that a differentiable function keeps one sample per point is an invariant of all runs (`OneEach`), so the samples stay distinct. `admm_consensus` has an equality constraint (the gradients at the solution add up to 0); every run with differentiable functions satisfies it (logic `EnsC`), so the argument of C69 for the splittings applies |
| C80 | all 21 circuits at two parameter choices that differ in `eta` and `rho` only (no new definitions of the program) | the two runs make the same calls with the same values; the objectives differ by the weight difference times the dissipated quantity, which is a sum of squares and of function gaps (`Sample` inequalities of the class). For the circuits with loops by the logics `EnsM` and `Declares` over all `n` |
| C81 | the program of `admm_consensus_proof` (no new definitions) | C69 reduces feasibility to the energy inequality; an identity writes the decrease as twice the two monotonicity terms, cocoercivity gives sufficiency, two equal quadratics with curvature near `L` give necessity; the bound on `eta` from two zero functions |
| C82 | `admm_euler_consensus` in verification mode for any number of functions (no new definitions) | C73 reduces the worst case to the energy inequality; the proximal steps express the currents by gradients, the sums over the functions of the cross terms vanish by Kirchhoff's law, strong convexity gives sufficiency; necessity from quadratics with curvature near `mu` and from `c\|x\| + mu/2 x²` with large `c`, two functions at ±1 and the others at 0 |
| C83 | the program of `prox_gradient_circuit` (no new definitions) | C69 reduces feasibility to the energy inequality; at `h = Capacitance R` the step is the proximal gradient step, monotonicity of the subgradient of `g` and cocoercivity of the gradient of `f` give sufficiency; the bound on `rho` from `f = 0` and `g = c\|x\|`, the bound on `eta` from quadratics with curvature near `L` and `g = 0` |
| C84 | `decentralized_gradient_descent_line3` in verification mode (no new definitions) | C73 reduces the worst case to the energy inequality; two one-sided parabolas whose kinks the step crosses, far from the equilibrium, make the power of the functions arbitrarily large while the energy decrease stays bounded, so `eta = 0`; equal quadratics along the mode `(1, -2, 1)` bound `h`; sufficiency is C64 |
| C85 | `diffusion_line3` in verification mode, and the feasible points of its program (no new definitions) | at `h = Capacitance R` the step is gradient step then averaging with the mixing matrix of the line; averaging decreases the energy by a third of the squared differences along the edges, cocoercivity bounds the gradient step; necessity from equal quadratics at equal nodes and from zero functions along the mode `(1, -2, 1)` |
| C86 | `pg_extra_l3` in verification mode, and the feasible points of its program (no new definitions) | at `h = 1/2` a step is `x⁺ = x - (I - W) x / 2 - R (grad h(x) + grad f(x⁺) + Bᵀ i)`; the change of the inductor energy cancels the coupling term, the Laplacian terms of an edge are bounded by the parallelogram law, cocoercivity bounds the smooth part; necessity from equal quadratics at equal nodes, with small curvature for `eta` and curvature near `L_h` for `rho` |

Nothing in the list is inexpressible.

## 3. What is modelled and what is not

Modelled, function by function (the comment of each definition cites the lines):

* `circuit_opt.py`: everything, up to the call of the external solver and from its return.
* `point.py`, `expression.py`, `function.py`: everything (`__hash__` is object identity, `get_is_leaf` is a field).
* `constraint.py`: everything except `counter` (never read by the code) and `eval_dual` (its field is never set, so it always raises ValueError).
* `sympy_parsing.py`: everything (`const_coeff_expr`, `linear_matrix_expr_to_coeff_matrix` and `coeff_matrix_to_linear_matrix_expr` are called nowhere in the package).
* `sympy_to_solvers.py`: everything except `gurobi_to_numpy` (unused).
* `extra_methods.py`: all four solvers, up to the call of the external solver and from its return; the attributes that `solve_sdp_relax` sets
  before it returns (lines 157-161) and printing are not modelled.
* `utils.py`: everything except `gp_trace` (unused), `gp_print_solutions`, `plot_methods` (output only).
* `classical_central_vi.py`, `classical_decentral_vi.py`, `new_algorithms_vi.py`: all 21 circuits in ciropt mode.
* `discretized_methods.py`: everything except timing and printing.
* `opt_problems/*.py`: the closed-form prox and gradient functions, the decentralised solvers, the M-norm, the reference points, the
  Metropolis-Hastings loop of the graph generators and the fixed graphs, `data_generation` as a function of the random draws.

Not modelled: the algorithm inside CVXPY (the reference functions `cvx_*`, `min_cvx_*` are modelled with an arbitrary solver, C72), the random generator, plotting, printing, the algorithm inside PEPit (C73 takes the supremum it documents), numerical accuracy and termination of Ipopt, CVXPY and Gurobi, notebooks (except `hello_world.ipynb`).

### Comparison with recorded runs

The code cannot be run here, but the notebooks in `examples/` contain the output of real runs.  For hello_world and for one call of each of the 19 circuits that appear
in the other notebooks the model prints exactly the recorded `dim_G`, `dim_F`, "Ipopt total # of variables" and "Actual # of variables"
(`lean/Verif/Tests/Recorded.lean`; tests, not proofs).  The total counts every product variable that the linearisation of monomials makes, so it depends on every
coefficient matrix of the problem.

The recorded optimal values of `eta` can be compared with proved optima (C78): gd.ipynb 0.99999999 (exact value `Cap/L` = 1), the tuned capacity 10.0 (exact value
`ub/L` = 10), primal decomposition with three functions 0.1666… (exact value `Cap/(2nL)` = 1/6), dual decomposition 0.05 (`mu Ind/2` = 0.05).

## 4. Disagreements between the code and the English properties

Each is a theorem (the negation of the property with a witness, or the exact condition under which the property holds).

* C14: numeric constants in constraints and metrics are dropped by `_expression_to_matrix`.
* C16: a second solve of the same problem raises AssertionError.
* C33/C34: the docstring mixing matrix of `diffusion_line3` does not match the code (row 0); `douglas_rachford_splitting` uses step-1 points for `i_L_1p5`.
* C33: the programs of `douglas_rachford_splitting` and `davis_yin_splitting` end in a state in which they do not start (the end energy is taken
  at a point that the next iteration does not start from), so their certificate bounds one step but does not add up over iterations.
* C35: `admm_consensus`: currents at step 1.5 do not sum to zero; `n_func = 1`: `dual_decomposition` raises AssertionError, `admm_consensus` TypeError.
* C36: an unknown name in `bounds` applies the bound to the previous variable, or raises UnboundLocalError; for the SDP, `lamb` also bounds `nu`;
  `solve_sdp_relax` with `var_bound` raises KeyError.
* C38: the degree check of `set_performance_metric` is vacuous.
* C39: `Constraint.eval` raises TypeError; evaluation raises after a solve too; `(f - f) + 3` keeps zero keys and raises ValueError.
* C40: creating a second `CircuitOpt` makes the first one unsound: a stale problem can return a false certificate (`C40_unsound`).
* C41: `inv_discr_params` tests substring, not prefix; a parameter `invP` replaces the matrix `P`.
* C27: QCQP parameter names with an underscore raise KeyError.  C29: one multiplier only: ValueError.
* C45/C52: an isolated node raises ZeroDivisionError; an unknown `alg_type` raises UnboundLocalError.  `const_vio` is always empty.
* C48: `grid_search` compares sums of different lengths when a run is short.
* C50: tolerance and symmetry of `equal_expression` fail when an expression with symbols collapses to a number; a vector of one entry against a
  1 × 1 matrix raises IndexError.
* C51: names `lamb0ho`; `gp_linearize_monomial` refers to an undefined name; `gamma` is never reported.
* C55: equal data points make `p_extra_dgeom_median` divide by zero (all NaN).
* C57: `set_performance_metric` silently overwrites an objective assigned before.
* C58: `const_coeff_expr` on an expression with a symbol that is not in the table overwrites the coefficient found before (`C58_const_stale`), where
  `linear_matrix_expr_to_coeff_matrix` raises KeyError.
* C63: a problem with no constraint at all is accepted by `solve_ipopt` and makes both QCQP formulations raise IndexError (`C63_lonely`).
* C64: `dgd_line3` with `mu = 0` (the class of the paper's convex functions): the nonlinear program has no feasible point with a positive step, although
  the inequality holds.  The constraint in the form of a squared norm makes the dual optimum unattained.
* C65: every formulation reads its own keyword for initial values and silently drops those of the others (`C65_dropped`): `init_values` and `x0` have no
  effect with "ipopt", `init_vals` none with the QCQP solvers, `x0` none with "ipopt_qcqp_matrix".  An unknown name is KeyError with "ipopt" and
  ignored by the QCQP solvers (`C65_ignored`), also the names of the parameters, under which all three return the solution.
* C66: `reuse_gradient=True` on `ConvexFunction` or `StronglyConvexFunction` adds no inequality that says the gradient is unique, so the worst case is taken
  over data that no such function has (`C66_reuse_gap`); the certificate stays sound, but may be missed.
* C71: the lower bound `1e-7` on `eta` in `solve_ipopt_qcqp` makes explicit proximal point steps infeasible, which `solve_ipopt` accepts (`C71_qcqp`).
* C81: `admm_consensus_proof` puts `rho * rho * (z1 - z2)^2` into the dissipation (line 624), with `rho = 1/R`; the textbook term is `2 * rho * (z1 - z2)^2`. The weight `rho` of the user, read at line 603, is overwritten at line 605 and never used. For small resistance the source's term
  is larger, and the program has no feasible point if `L (1 - 2 R) > 4` (`C81_admmConsensusProof`).
* C83: the dissipation of `prox_gradient_circuit` has the coefficient `1/L - R` (line 232), which is not positive for `R >= 1/L`; then every `eta >= 0` is feasible at the textbook step and a program whose objective increases with `eta` has no maximum. The notebook avoids this with `R = 0.9 / L`.
* C73: `dual_decomposition(..., params=...)` always raises an error: it calls `co_func.subgrad_conjugate` in verification mode too and adds the ciropt point to
  PEPit points (`C73_dual`).  The dictionary of the Gurobi solvers lacks `gamma` unless `all` is set, so its verification is a KeyError for eight circuits (`C73_gurobi`).
* C74: `params = problem.solve()[:1]` in README.md binds a one-element tuple, not the dictionary (the notebook uses `params, sol = problem.solve()[:2]`); the text of
  the notebook says `mu = 1/2`, its code uses `mu = 0`; the recorded optimum exceeds the exact one by about 1e-9 (`C74_answer`); with the exact optimum `h = 20/3` two of
  the printed algorithm's sequences need not converge (`C74_oscillates`), with the rounded factors 0.33 and 0.16 they do (`C74_readme`).
* C75: "Actual # of variables" of `solve_ipopt` adds `dim_F`, which counts equations and not variables (the QCQP solvers do not add it); with a parameter `invh` the
  variable `h` is made twice, and the first one stays in the program without a name (`C75_orphan`).
* C77: `solve_bisection_eta` swallows every error inside its loop. On a problem with fewer than two multipliers, for which `solve_fix_discr_sdp` always raises, it returns
  `eta / 2 ** max_iters` as if it had been found (`C77_bisection_silent`).
* C76: `solve_sdp_relax` returns a dictionary of the same shape as `solve`, but without the check of the status: it is full of `None` after an infeasible or unbounded
  relaxation, and after an optimal one its parameters need not be certified (`C76_not_certificate`: `eta = 10` where `1/4` is the largest that holds).
* C60: `dadmm` divides by `f_star` without absolute value: its relative value errors are never positive if `f_star < 0` (`pg_extra` takes the
  absolute value of the quotient).

## 5. Trusted base

* Lean 4.33.0 kernel.  No `native_decide`, no `bv_decide`, no added axioms, no `sorry`.  `decide +kernel` is evaluation by the kernel and is used only
  for concrete examples, witnesses and facts about literal strings.
* Axioms: only `propext`, `Classical.choice`, `Quot.sound`; per theorem in `AXIOMS.md` (generated with `Lean.collectAxioms`).
* Mathlib's definitions used in statements: real numbers, inner product spaces, finite sums, limits, `MvPolynomial`, `Matrix`.
* The faithfulness of the model to the python text (each definition cites file and lines and states its simplifications), of the contract
  `CAS.Lawful` to SymPy, and of the constraint semantics (`CExp`, `Constr`) to CasADi, CVXPY and Gurobi.
