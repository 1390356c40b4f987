{"claims": [
{"property": "C01", "status": "proved", "theorems": ["Verif.C01_add", "Verif.C01_scale", "Verif.C01_neg", "Verif.C01_sub", "Verif.C01_div", "Verif.C01_div_zero", "Verif.C01_add_type"], "note": "for every lawful CAS, heap, inner product space"},
{"property": "C02", "status": "proved", "theorems": ["Verif.C02_inner", "Verif.C02_sq", "Verif.C02_pow_reject", "Verif.C02_symm", "Verif.C02_mul_dispatch"], "note": ""},
{"property": "C03", "status": "proved", "theorems": ["Verif.C03_add", "Verif.C03_addNum", "Verif.C03_scale", "Verif.C03_neg", "Verif.C03_sub", "Verif.C03_subNum", "Verif.C03_rsubNum", "Verif.C03_div", "Verif.C03_div_zero", "Verif.C03_add_type", "Verif.C03_mul_type"], "note": ""},
{"property": "C04", "status": "proved", "theorems": ["Verif.C04_registry", "Verif.C04_errors"], "note": ""},
{"property": "C05", "status": "proved", "theorems": ["Verif.C05_reuse", "Verif.C05_evaluated", "Verif.C05_violated"], "note": "the corner where it fails (point with a stored zero coefficient) is proved as C05_violated"},
{"property": "C06", "status": "proved", "theorems": ["Verif.C06_fresh", "Verif.C06_value"], "note": ""},
{"property": "C07", "status": "proved", "theorems": ["Verif.C07_oracle", "Verif.C07_addPoint", "Verif.C07_violated"], "note": "the corner where add_point leaves the sum untied is proved as C07_violated"},
{"property": "C08", "status": "proved", "theorems": ["Verif.C08_stationary", "Verif.C08_sum"], "note": ""},
{"property": "C09", "status": "proved", "theorems": ["Verif.C09_prox", "Verif.C09_conjugate"], "note": ""},
{"property": "C10", "status": "proved", "theorems": ["Verif.C10_classConstraints", "Verif.C10_duplicate"], "note": "C10_duplicate: the same triple recorded twice makes the translation raise IndexError"},
{"property": "C11", "status": "proved", "theorems": ["Verif.C11_valid", "Verif.C11_formula", "Verif.C11_mu_eq_L"], "note": "mu = L raises ZeroDivisionError (C11_mu_eq_L)"},
{"property": "C12", "status": "proved", "theorems": ["Verif.C12_declared", "Verif.C12_members"], "note": ""},
{"property": "C13", "status": "proved", "theorems": ["Verif.C13_matrix", "Verif.C13_noConst"], "note": ""},
{"property": "C14", "status": "proved", "theorems": ["Verif.C14_dropped", "Verif.C14_certificate"], "note": "The claim is violated by the code. C14_dropped: the matrix form differs from the value by exactly the constant term, for every expression. C14_certificate: a feasible certificate exists although the metric is 1 on an execution."},
{"property": "C15", "status": "proved", "theorems": ["Verif.C15_enumerate"], "note": ""},
{"property": "C16", "status": "proved", "theorems": ["Verif.C16_twice", "Verif.probProg_ok"], "note": "violated by the code: exact characterisation of the failing second solve"},
{"property": "C17", "status": "proved", "theorems": ["Verif.C17_sum"], "note": ""},
{"property": "C18", "status": "proved", "theorems": ["Verif.C18_rows", "Verif.C18_ok"], "note": "rows of the coefficient matrices times the monomial values give the entries; success for parameters without underscore"},
{"property": "C19", "status": "proved", "theorems": ["Verif.C19_table", "Verif.C19_lookup"], "note": "no duplicates, starts with 1 and the parameters, closed under prefixes, lookups succeed"},
{"property": "C20", "status": "proved", "theorems": ["Verif.C20_linearize", "Verif.C20_affine", "Verif.C20_roundtrip", "Verif.C20_underscore"], "note": "linearize keeps the value, is affine, collapse undoes it; a_b is read as a*b"},
{"property": "C21", "status": "proved", "theorems": ["Verif.C21_lamb", "Verif.C21_nu", "Verif.C21_injective", "Verif.C21_params", "Verif.C21_mistaken"], "note": "names decode to the multiplier; parameters starting with lamb or nu raise ValueError"},
{"property": "C22", "status": "proved", "theorems": ["Verif.C22_exact", "Verif.C22_extend", "Verif.C22_ok", "Verif.C22_plain"], "note": "exactness at feasible points, extension of assignments, success; for sequences of conversions"},
{"property": "C23", "status": "proved", "theorems": ["Verif.C23_pack", "Verif.C23_element", "Verif.C23_unpack", "Verif.C23_diag", "Verif.C23_matrix"], "note": "Over every commutative semiring of entries."},
{"property": "C24", "status": "proved", "theorems": ["Verif.C24_select", "Verif.C24_partition"], "note": ""},
{"property": "C25", "status": "proved", "theorems": ["Verif.C25_flatten_reshape", "Verif.C25_reshape_flatten", "Verif.C25_empty", "Verif.C25_bad_length"], "note": "For n = 0 and for lengths that are not n(n-1) the behaviour is stated separately."},
{"property": "C26", "status": "proved", "theorems": ["Verif.C26_sound", "Verif.C26_iff"], "note": "The NLP is the constraint set handed to Ipopt, exact arithmetic; solver tolerances are out of scope. Hypotheses: symbols of the program are in the parameter list, plain names, no numeric constants (C14) and computable classes. C26_iff: feasible at parameter values iff the dual system has a solution there (plus reciprocity, bounds, three sign conditions). descent_feasible, descent2_feasible are concrete feasible instances."},
{"property": "C27", "status": "proved", "theorems": ["Verif.C27_iff", "Verif.C27_sound", "Verif.C27_env"], "note": "iff characterisation of QCQP-feasible vectors and soundness; bounds must name monomials of the table (others: see C36)"},
{"property": "C28", "status": "proved", "theorems": ["Verif.C28_matrix", "Verif.C28_direct"], "note": "same table, vector and objective; feasible sets differ exactly by the four lower bounds; C28_direct: the direct NLP and the QCQP are feasible at the same parameter values"},
{"property": "C29", "status": "proved", "theorems": ["Verif.C29_iff", "Verif.C29_sound", "Verif.C29_exists", "Verif.C29_qcqp", "Verif.C29_single"], "note": "solve_fix_discr_sdp; exactly one multiplier raises ValueError (C29_single)"},
{"property": "C30", "status": "proved", "theorems": ["Verif.C30_contains", "Verif.C30_bound", "Verif.C30_qcqp", "Verif.C30_box", "Verif.C30_var_bound"], "note": "solve_sdp_relax; the box on alpha, beta is built in, var_bound always raises KeyError"},
{"property": "C31", "status": "proved", "theorems": ["Verif.C31_search", "Verif.C31_failure", "Verif.C31_certified"], "note": "solve_bisection_eta for an arbitrary solver"},
{"property": "C32", "status": "proved", "theorems": ["Verif.C32_represent", "Verif.C32_classes"], "note": ""},
{"property": "C33", "status": "proved", "theorems": ["Verif.C33_gradientFlowTuneC", "Verif.C33_acceleratedGradient", "Verif.C33_acceleratedGradientTuneRLC", "Verif.C33_proxGradient", "Verif.C33_admmConsensusProof", "Verif.C33_primalDecomposition", "Verif.C33_dualDecomposition", "Verif.C33_admmConsensus", "Verif.C33_admmEulerConsensus", "Verif.C33_dgdLine3", "Verif.C33_diffusionLine3", "Verif.C33_exampleFC3RC", "Verif.C33_pgExtraLine3", "Verif.C33_dadmmLine3", "Verif.C33_dadmmCycle4", "Verif.C33_dadmmGraph6", "Verif.C33_dadmmCGraph6", "Verif.C33_telescope", "Verif.C33_gradientFlow", "Verif.C33_ppm"], "note": "Telescoping for every N; convergence of every run for 19 of the 21 circuit builders from a feasible point of their nonlinear program. douglas_rachford_splitting and davis_yin_splitting are not covered: the state in which their program ends is not one in which it starts, so the inequality does not add up. Runs with exact certificates are given for all but the two six-node circuits."},
{"property": "C34", "status": "proved", "theorems": ["Verif.C34_gradientFlow", "Verif.C34_gradientFlowTuneC", "Verif.C34_acceleratedGradient", "Verif.C34_acceleratedGradientTuneRLC", "Verif.C34_ppm", "Verif.C34_proxGradient", "Verif.C34_douglasRachford", "Verif.C34_davisYin", "Verif.C34_admmConsensusProof", "Verif.C34_dgdLine3", "Verif.C34_diffusionLine3", "Verif.C34_pgExtraLine3", "Verif.C34_dadmmLine3", "Verif.C34_dadmmCycle4", "Verif.C34_dadmmGraph6", "Verif.C34_dadmmCGraph6", "Verif.C34_exampleFC3RC", "Verif.C34_dualDecomposition", "Verif.C34_primalDecomposition", "Verif.C34_admmConsensus", "Verif.C34_admmEulerConsensus", "Verif.C34_gradientFlow_feasible", "Verif.C34_gradientFlowTuneC_feasible", "Verif.C34_acceleratedGradient_feasible", "Verif.C34_acceleratedGradientTuneRLC_feasible", "Verif.C34_ppm_feasible", "Verif.C34_proxGradient_feasible", "Verif.C34_douglasRachford_feasible", "Verif.C34_davisYin_feasible", "Verif.C34_admmConsensusProof_feasible", "Verif.C34_primalDecomposition_feasible", "Verif.C34_dualDecomposition_feasible", "Verif.C34_admmConsensus_feasible", "Verif.C34_admmEulerConsensus_feasible", "Verif.C34_dgdLine3_feasible", "Verif.C34_diffusionLine3_feasible", "Verif.C34_pgExtraLine3_feasible", "Verif.C34_dadmmLine3_feasible", "Verif.C34_dadmmCycle4_feasible", "Verif.C34_exampleFC3RC_feasible"], "note": "All 21 circuit builders. A feasible point of the nonlinear program made from the builder implies its energy inequality for every function of the class, in every real inner-product space, for every step of the discretized method; the four consensus circuits for every number of functions. The _feasible theorems show that the hypothesis is met: exact certificates at concrete parameters for 19 of the 21 circuits (not for dadmm_graph6 and dadmm_c_graph6)."},
{"property": "C35", "status": "proved", "theorems": ["Verif.C35_dualDecomposition", "Verif.C35_admmEulerConsensus", "Verif.C35_admmConsensus", "Verif.C35_admmConsensus_violated"], "note": "For every number of functions. The property fails at step 1.5 of admm_consensus; the exact nonzero sum is proved and an execution violating it is given for every number of functions and all parameters with alpha*h nonzero."},
{"property": "C36", "status": "proved", "theorems": ["Verif.C36_known", "Verif.C36_all", "Verif.C36_violated", "Verif.C36_error", "Verif.C36_cvx"], "note": "holds for known names; violated for unknown names (the bound is applied to the previously named variable)"},
{"property": "C37", "status": "proved", "theorems": ["Verif.C37_unknown", "Verif.C37_known", "Verif.C37_ipopt", "Verif.C37_qcqp", "Verif.C37_qcqp_matrix", "Verif.C37_sdp", "Verif.C37_bisection", "Verif.C37_unsuccessful", "Verif.C37_ipopt_certifies", "Verif.C37_qcqp_certifies", "Verif.C37_report"], "note": ""},
{"property": "C38", "status": "proved", "theorems": ["Verif.C38_degree", "Verif.C38_linear", "Verif.C38_vacuous", "Verif.C38_constant_raises"], "note": "check_degree_expression is correct on polynomials; the check of set_performance_metric is vacuous (negative finding)."},
{"property": "C39", "status": "proved", "theorems": ["Verif.C39_point", "Verif.C39_expression", "Verif.C39_constraint_violated", "Verif.C39_after_solve"], "note": "eval of leaves always raises, also after a solve; the constraint error path is a TypeError"},
{"property": "C40", "status": "proved", "theorems": ["Verif.C40_isolated", "Verif.C40_ipopt_sound", "Verif.C40_qcqp_sound", "Verif.C40_sdp_sound", "Verif.C40_mixed", "Verif.C40_raises", "Verif.C40_unsound"], "note": "new problems are isolated (proved); old problems are not: universal failure and a concrete false certificate are proved"},
{"property": "C41", "status": "proved", "theorems": ["Verif.C41_recognised", "Verif.C41_ipopt", "Verif.C41_qcqp", "Verif.C41_mangled"], "note": "enforced in the direct NLP and the QCQP for names inv+v; C41_mangled: a name containing inv elsewhere makes a spurious pair"},
{"property": "C42", "status": "proved", "theorems": ["Verif.C42_edges", "Verif.C42_currents"], "note": "Both ends of every edge hold the same potential and opposite inductor currents after every iteration (the current law excepts the one edge whose capacitor variant changes the update)."},
{"property": "C43", "status": "proved", "theorems": ["Verif.C43_fixedPoint"], "note": "A state left unchanged by an iteration is consensual and minimises the sum."},
{"property": "C44", "status": "proved", "theorems": ["Verif.C44_sum", "Verif.C44_fixedPoint"], "note": "Corrections sum to zero after every iteration (columns of W sum to one); fixed points are consensus minimisers."},
{"property": "C45", "status": "proved", "theorems": ["Verif.C45_antisymmetric", "Verif.C45_closedForm", "Verif.C45_fixedPoint"], "note": "Currents at the two ends of an edge are opposite; closed forms of inductor and capacitor currents; fixed points are consensus minimisers."},
{"property": "C46", "status": "proved", "theorems": ["Verif.C46_ok", "Verif.C46_symmetric", "Verif.C46_rows", "Verif.C46_support", "Verif.C46_edges", "Verif.C46_diagonal", "Verif.C46_nonneg", "Verif.C46_doublyStochastic", "Verif.C46_connected", "Verif.C46_nullspace", "Verif.C46_graph20_small"], "note": "Metropolis-Hastings weights of every simple graph; graph_generation(n) with n < 20 raises IndexError."},
{"property": "C47", "status": "proved", "theorems": ["Verif.C47_halfspace", "Verif.C47_halfspace_none", "Verif.C47_norm", "Verif.C47_norm_none", "Verif.C47_normSc", "Verif.C47_normSc_none", "Verif.C47_quadNorm", "Verif.C47_quadNorm_ok", "Verif.C47_soft", "Verif.C47_gradQuad"], "note": "Every closed-form proximal operator of the example problems is the unique minimiser of its prox objective; the places where the code divides by zero are characterised (C47_norm_none: the prox at z = b is NaN in the code)."},
{"property": "C48", "status": "proved", "theorems": ["Verif.C48_first_best", "Verif.C48_unbound", "Verif.C48_raise", "Verif.C48_mean", "Verif.C48_short_list"], "note": "C48_short_list is a negative finding: a run whose list is shorter than the window scores 0 and wins."},
{"property": "C49", "status": "proved", "theorems": ["Verif.C49_symmetric", "Verif.C49_nonsymmetric"], "note": "For symmetric matrices both parts are positive semidefinite, their difference is A and their product zero; C49_nonsymmetric shows the claim fails for matrices that are not symmetric, which the code accepts. Eigensolver and argsort are arbitrary correct oracles."},
{"property": "C50", "status": "proved", "theorems": ["Verif.C50_of_close", "Verif.C50_iff", "Verif.C50_refl", "Verif.C50_symm", "Verif.C50_same_value", "Verif.C50_not_transitive", "Verif.C50_tolerance", "Verif.C50_arrays", "Verif.C50_arrays_squeeze", "Verif.C50_arrays_one", "Verif.C50_arrays_shape"], "note": "The threshold and symmetry hold under the proviso of C50_iff; C50_tolerance shows both fail when an expression with symbols collapses to a number."},
{"property": "C51", "status": "proved", "theorems": ["Verif.C51_names", "Verif.C51_missing", "Verif.C51_product", "Verif.C51_trivial", "Verif.C51_raises", "Verif.C51_sound", "Verif.C51_variables", "Verif.C51_report"], "note": "the property fails in the code; its failure is proved for every function index and, for every problem with two samples of one function, that solve_gp raises. For the problems on which it does not raise, its feasible points are certificates and its variables have exactly the listed constraints"},
{"property": "C52", "status": "proved", "theorems": ["Verif.C52_values", "Verif.C52_consensus", "Verif.C52_fReldiff", "Verif.C52_errOptStar_sum", "Verif.C52_errOptStar", "Verif.C52_iterates", "Verif.C52_errOptStar_unique", "Verif.C52_opt_of_min", "Verif.C52_sharp", "Verif.C52_diverges"], "note": "Convergence of dadmm, cir_dadmm and cir_dadmm_c, exact real arithmetic. C52_iterates: in finite dimension the points converge to one minimiser. C52_opt_of_min discharges the optimality hypothesis for every minimiser when the domains have a common interior point. C52_sharp and C52_diverges: the bound on step_size*R cannot be relaxed."},
{"property": "C53", "status": "proved", "theorems": ["Verif.C53_values", "Verif.C53_consensus", "Verif.C53_opNorm_sum", "Verif.C53_fReldiff", "Verif.C53_errOptStar_sum", "Verif.C53_errOptStar", "Verif.C53_metropolis", "Verif.C53_metropolis_plain", "Verif.C53_iterates", "Verif.C53_errOptStar_unique", "Verif.C53_opt_of_min"], "note": "Convergence of both variants; the step condition is met by Metropolis-Hastings weights. In finite dimension the points converge to one minimiser."},
{"property": "C54", "status": "proved", "theorems": ["Verif.C54_dadmm", "Verif.C54_pgExtra"], "note": "Exact real arithmetic."},
{"property": "C55", "status": "proved", "theorems": ["Verif.C55_median_iterates", "Verif.C55_median_values", "Verif.C55_median_distances", "Verif.C55_median_exists", "Verif.C55_median_unique", "Verif.C55_median_nan", "Verif.C55_anorm_ok", "Verif.C55_anorm_values", "Verif.C55_anorm_distances", "Verif.C55_sensing_iterates", "Verif.C55_sensing_values", "Verif.C55_sensing_distances", "Verif.C55_sensing_solution", "Verif.C55_sensing_exists"], "note": "Exact arithmetic; NaN is a value. np.linalg.solve by its contract."},
{"property": "C56", "status": "proved", "theorems": ["Verif.C56_nonneg", "Verif.C56_antitone", "Verif.C56_rate", "Verif.C56_norm"], "note": "np.linalg.svd by its contract (IsSvd)."},
{"property": "C57", "status": "proved", "theorems": ["Verif.C57_ipopt", "Verif.C57_ipopt_best", "Verif.C57_qcqp", "Verif.C57_only", "Verif.C57_feasible", "Verif.C57_reset"], "note": "The relaxation's bound on the assigned objective is C30_bound. In the quadratic programs a product of parameters that is missing from the table raises in the model; the code would add a variable."},
{"property": "C58", "status": "proved", "theorems": ["Verif.C58_accepts", "Verif.C58_rows", "Verif.C58_rebuild", "Verif.C58_coefficients", "Verif.C58_problem", "Verif.C58_const", "Verif.C58_const_stale"], "note": "C58_const_stale is the counterexample for const_coeff_expr on expressions with an unlisted symbol."},
{"property": "C59", "status": "proved", "theorems": ["Verif.C59_factor", "Verif.C59_psd"], "note": "Exact real arithmetic; eigh and cholesky are arbitrary functions with numpy's contract on the given matrix."},
{"property": "C60", "status": "proved", "theorems": ["Verif.C60_dadmm", "Verif.C60_dadmm_prefix", "Verif.C60_dadmm_sign", "Verif.C60_dadmm_reldiff", "Verif.C60_pgExtra", "Verif.C60_pgExtra_prefix", "Verif.C60_pgExtra_reldiff", "Verif.C60_sensing", "Verif.C60_median", "Verif.C60_anorm"], "note": "Exact real arithmetic; divisions by zero of a reference distance or value (numpy inf/NaN) are excluded by hypothesis."},
{"property": "C61", "status": "proved", "theorems": ["Verif.C61_qp", "Verif.C61_sensing_blocks", "Verif.C61_sensing_measurements", "Verif.C61_sensing_signal", "Verif.C61_sensing_converges", "Verif.C61_anorm", "Verif.C61_median", "Verif.C61_anorm_converges"], "note": "The draws of numpy's random generator are parameters of the model; the matrix from np.linalg.qr is any orthogonal matrix. Exact arithmetic."},
{"property": "C62", "status": "proved", "theorems": ["Verif.C62_solution", "Verif.C62_iterates", "Verif.C62_distance", "Verif.C62_values", "Verif.C62_experiment", "Verif.C62_experiment_parC"], "note": "End to end: generated data, proximal operators, gradients, weights, pg_extra, reported lists. Exact arithmetic. The bound on the parallel-capacitor variant is sufficient, not necessary: typical draws of the notebook (vector size 50) exceed it."},
{"property": "C63", "status": "proved", "theorems": ["Verif.C63_ipopt", "Verif.C63_qcqp", "Verif.C63_feasible", "Verif.C63_solve", "Verif.C63_lonely"], "note": "C63_ipopt and C63_qcqp: exact condition for the construction to raise no error. C63_solve: outcomes of solve. C63_feasible: with C26. C63_lonely: the QCQP formulations raise IndexError without constraints."},
{"property": "C64", "status": "proved", "theorems": ["Verif.C64_robust", "Verif.C64_dgdLine3", "Verif.C64_dgdLine3_guaranteed"], "note": "C64_robust: quantitative form of weak duality. C64_dgdLine3: no certificate with a positive step for mu = 0. C64_dgdLine3_guaranteed: the inequality itself is true there."},
{"property": "C65", "status": "proved", "theorems": ["Verif.C65_same_problem", "Verif.C65_direct", "Verif.C65_unknown", "Verif.C65_accepts", "Verif.C65_qcqp", "Verif.C65_qcqp_x", "Verif.C65_restart", "Verif.C65_restart_qcqp", "Verif.C65_snapshot", "Verif.C65_ignored", "Verif.C65_dropped"], "note": "Exact starting point for every dictionary of initial values; the program given to Ipopt does not depend on it; feasible restarts. Findings: dropped keywords (C65_dropped) and ignored names (C65_ignored)."},
{"property": "C66", "status": "proved", "theorems": ["Verif.C66_exact", "Verif.C66_reuse_gap"], "note": "Exactness of the interpolation inequalities for all classes; counterexample for reuse_gradient=True on classes that need not be differentiable."},
{"property": "C67", "status": "proved", "theorems": ["Verif.C67_realize", "Verif.C67_iff", "Verif.C67_circuits"], "note": "Converse of C32 for standard programs; every circuit builder with a fixed number of functions is standard."},
{"property": "C68", "status": "proved", "theorems": ["Verif.C68_counterexample", "Verif.C68_duality", "Verif.C68_ipopt", "Verif.C68_qcqp"], "note": "Strict feasibility of the inequalities at the parameter values is a hypothesis: C64 shows it cannot be dropped."},
{"property": "C69", "status": "proved", "theorems": ["Verif.C69_gradientFlow", "Verif.C69_gradientFlowTuneC", "Verif.C69_acceleratedGradient", "Verif.C69_acceleratedGradientTuneRLC", "Verif.C69_ppm", "Verif.C69_proxGradient", "Verif.C69_exampleFC3RC", "Verif.C69_douglasRachford", "Verif.C69_davisYin", "Verif.C69_admmConsensusProof"], "note": "Degenerate parameter values (two points of evaluation coincide for all functions) are excluded explicitly in each statement. The splittings need no such condition; their equality constraint is shown to hold in every run (complete_of_redundant)."},
{"property": "C70", "status": "proved", "theorems": ["Verif.C70_gradientDescent", "Verif.C70_best"], "note": "alpha in {0, 1} is degenerate (two points of evaluation coincide) and excluded in C70_gradientDescent only."},
{"property": "C71", "status": "proved", "theorems": ["Verif.C71_proximalPoint", "Verif.C71_best", "Verif.C71_qcqp"], "note": "h = CR with beta = 1 is excluded in the exact description: there two evaluations coincide and the program is not strictly feasible."},
{"property": "C72", "status": "proved", "theorems": ["Verif.C72_proxNorm", "Verif.C72_proxNormSc", "Verif.C72_proxQuadNorm", "Verif.C72_median_sound", "Verif.C72_median_ok", "Verif.C72_anorm_sound", "Verif.C72_anorm_ok", "Verif.C72_sensing_sound", "Verif.C72_sensing_ok", "Verif.C72_proxSensing", "Verif.C72_qp_sound", "Verif.C72_qp_free", "Verif.C72_qp_infeasible", "Verif.C72_qp_ok", "Verif.C72_anorm_unique", "Verif.C72_median_run", "Verif.C72_anorm_run", "Verif.C72_sensing_run", "Verif.C72_qp_run"], "note": "CVXPY is a parameter: an arbitrary function from problems to a status and a point. The soundness theorems assume only that 'optimal' points are solutions, the others also that solvable problems are solved; such a solver is shown to exist. Distances for the compressed sensing problem are for data with a unique minimiser."},
{"property": "C73", "status": "proved", "theorems": ["Verif.C73_keys", "Verif.C73_builds", "Verif.C73_dual", "Verif.C73_worst_case", "Verif.C73_feasible", "Verif.C73_certified", "Verif.C73_certified_qcqp", "Verif.C73_exact", "Verif.C73_gurobi", "Verif.C73_gradientDescent", "Verif.C73_admmConsensus", "Verif.C73_admmEulerConsensus", "Verif.C73_douglasRachford", "Verif.C73_douglasRachford_exact", "Verif.C73_davisYin", "Verif.C73_davisYin_exact", "Verif.C73_admmConsensus_exact", "Verif.C73_admmConsensusProof"], "note": "PEPit is external: its answer is modelled as the supremum it documents. dual_decomposition is the exception the property names (C73_dual). C73_exact needs strict feasibility, which C69 proves for seven circuits; the splittings are treated by C73_douglasRachford_exact and C73_davisYin_exact, admm_consensus by C73_admmConsensus_exact."},
{"property": "C74", "status": "proved", "theorems": ["Verif.C74_complete", "Verif.C74_helloWorld", "Verif.C74_answer", "Verif.C74_readme", "Verif.C74_converges", "Verif.C74_oscillates"], "note": "The program of README.md: built without error, exact feasible set, exact optimum 20/3, convergence of the printed algorithm and of the algorithm with any feasible h < 2RC/3; oscillation at the optimum as a counterexample."},
{"property": "C75", "status": "proved", "theorems": ["Verif.C75_le", "Verif.C75_total", "Verif.C75_orphan", "Verif.C75_qcqp", "Verif.C75_extra"], "note": "Printed total = number of decision variables (exact condition, counterexample for invh); extra_dim entries are free."},
{"property": "C76", "status": "proved", "theorems": ["Verif.C76_report", "Verif.C76_none", "Verif.C76_bound", "Verif.C76_not_certificate"], "note": "The attributes set in lines 157-161 are not modelled. C76_not_certificate shows that the dictionary is only a bound."},
{"property": "C77", "status": "proved", "theorems": ["Verif.C77_fixed", "Verif.C77_bisection", "Verif.C77_relax", "Verif.C77_matrix", "Verif.C77_bisection_silent"], "note": "exact conditions for building the programs"},
{"property": "C78", "status": "proved", "theorems": ["Verif.C78_gradientFlow", "Verif.C78_nonsmooth", "Verif.C78_gradientFlowTuneC", "Verif.C78_primalDecomposition", "Verif.C78_dualDecomposition", "Verif.C78_dualDecomposition_le"], "note": "exact largest eta for gradient flow (fixed and tunable capacity), primal decomposition and (0 < mu) dual decomposition with any number of functions; dual decomposition with mu = 0: the upper bound 0"},
{"property": "C79", "status": "proved", "theorems": ["Verif.C79_primalDecomposition", "Verif.C79_dualDecomposition", "Verif.C79_admmConsensus"], "note": "feasible iff the energy inequality holds for all functions and steps, any number of functions, h and alpha not 0; dual decomposition for smooth functions; admm_consensus without condition on h and alpha"},
{"property": "C80", "status": "proved", "theorems": ["Verif.C80_lower", "Verif.C80_feasible", "Verif.C80_certified", "Verif.C80_primal_program", "Verif.C80_ppm_program", "Verif.C80_douglasRachford_program", "Verif.C80_davisYin_program", "Verif.C80_admmConsensus_program", "Verif.C80_admmConsensusProof_program"], "note": "all 21 circuits; the conditions on resistances are in Circuit.Dissipates; the return to a feasible point of the program is proved for primal_decomposition, ppm_circuit, the two splittings with smooth functions, admm_consensus and admm_consensus_proof"},
{"property": "C81", "status": "proved", "theorems": ["Verif.C81_admmConsensusProof", "Verif.C81_admmConsensusProof_verify", "Verif.C81_admmConsensusProof_best"], "note": "Both directions for all 0 <= mu < L and R > 0. The dissipation term of the source is rho * rho * (z1 - z2)^2 with rho = 1/R (line 624), so that for small R the program has no feasible point at all."},
{"property": "C82", "status": "proved", "theorems": ["Verif.C82_admmEulerConsensus", "Verif.C82_admmEulerConsensus_smooth", "Verif.C82_admmEulerConsensus_feasible"], "note": "The equivalence is for functions without smoothness; with smoothness sufficiency and the bound on rho, as the property says."},
{"property": "C83", "status": "proved", "theorems": ["Verif.C83_proxGradient", "Verif.C83_proxGradient_best", "Verif.C83_proxGradient_eta"], "note": "The upper bound on rho is for mu = 0, as the property says; feasibility, unboundedness and the bound on eta for all 0 <= mu < L."},
{"property": "C84", "status": "proved", "theorems": ["Verif.C84_dgdLine3"], "note": "With rho > 0 only the necessary conditions, as the property says. PEPit's answer is modelled as the supremum it documents (C73)."},
{"property": "C85", "status": "proved", "theorems": ["Verif.C85_diffusionLine3", "Verif.C85_diffusionLine3_best", "Verif.C85_diffusionLine3_feasible"], "note": "PEPit's answer is modelled as the supremum it documents (C73)."},
{"property": "C86", "status": "proved", "theorems": ["Verif.C86_pgExtraLine3", "Verif.C86_pgExtraLine3_best", "Verif.C86_pgExtraLine3_feasible", "Verif.C86_pgExtraLine3_run"], "note": "The sufficient bound on rho and the necessary one differ by R L_h (1/W[1][1] - 1)/4; eta is exact at the classical step. The numbers of examples/decentralized/pg_extra_line3.ipynb are an instance."}
]}
