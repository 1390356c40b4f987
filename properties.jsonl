{"id": "C01", "title": "Point arithmetic is vector arithmetic", "statement": "For any two Points p, q and any scalar s (number or symbolic polynomial), the Points returned by p+q, p-q, -p, s*p and p/c (number c != 0) denote respectively the vector sum, difference, negation and scalar multiples of what p and q denote, and no previously existing Point changes its denotation. p/0 raises ZeroDivisionError.", "quantifier": "all heaps of Points, all scalars, all assignments of real values to discretization parameters, all real vector spaces and all values of leaf points", "why_tests_cant": "The vector space, the parameter values and the decomposition of the points are arbitrary; tests only sample a few.", "anchors": ["ciropt/point.py:Point.__add__", "ciropt/point.py:Point.__rmul__", "ciropt/point.py:Point.__truediv__", "ciropt/sympy_parsing.py:merge_dict", "ciropt/sympy_parsing.py:prune_dict"]}
{"id": "C02", "title": "Products of Points are inner products", "statement": "p*q denotes the inner product of the vectors p and q denote, hence is bilinear and symmetric in value; p**2 denotes the squared norm; any power other than 2 is rejected.", "quantifier": "all points, parameter values, real inner product spaces", "why_tests_cant": "Quantifies over all inner product spaces and all decompositions.", "anchors": ["ciropt/point.py:Point.__rmul__", "ciropt/point.py:Point.__pow__", "ciropt/sympy_parsing.py:multiply_dicts"]}
{"id": "C03", "title": "Expression arithmetic is real arithmetic", "statement": "e1+e2, e1-e2, -e, s*e, e/c, e+c, e-c, c-e denote the corresponding real numbers, for Expressions e and numeric constants c; adding a symbolic scalar raises TypeError.", "quantifier": "all expressions, scalars, parameter values and leaf valuations", "why_tests_cant": "All decompositions and valuations.", "anchors": ["ciropt/expression.py:Expression.__add__", "ciropt/expression.py:Expression.__rsub__", "ciropt/expression.py:Expression.__rmul__", "ciropt/expression.py:Expression.__truediv__"]}
{"id": "C04", "title": "Leaf registry stays consistent under every API history", "statement": "After a problem is created and any sequence of API calls is made on it, the leaf points (resp. leaf expressions) created since are numbered 0,1,2,... without gaps or repetition, the size reported to the solver (dim_G, dim_F) is the number of leaves, and every decomposition reachable by the user mentions only those leaves; so translating any expression to matrices never indexes out of range.", "quantifier": "all finite sequences of API calls (declare function, combine functions, initial point, oracle, stationary point, proximal step, arithmetic, add_point)", "why_tests_cant": "Unbounded histories of mutating calls with shared global counters.", "anchors": ["ciropt/point.py:Point.__init__", "ciropt/expression.py:Expression.__init__", "ciropt/function.py:Function.oracle", "ciropt/circuit_opt.py:CircuitOpt._reset_classes"]}
{"id": "C05", "title": "A differentiable function returns one gradient per point", "statement": "If a function was declared with reuse of gradients (L < inf), calling its oracle (or gradient, value) again on a point it was already evaluated at returns the very same gradient and value objects and creates no new leaf, whatever calls happened in between. This holds for points that no zero coefficient was left in (built without scaling by zero); for a point such as 0*a it fails: the second call returns a different gradient.", "quantifier": "all histories between the two calls, all points", "why_tests_cant": "Depends on mutation history of shared objects.", "anchors": ["ciropt/function.py:Function.oracle", "ciropt/function.py:Function._is_already_evaluated_on_point", "ciropt/function.py:Function.gradient", "ciropt/function.py:Function.value"]}
{"id": "C06", "title": "A non-differentiable function returns fresh subgradients but one value", "statement": "If a leaf function was declared without gradient reuse (L = inf), each oracle call on an already evaluated point (with no zero coefficient left in it) returns a new leaf gradient and the previously returned value object.", "quantifier": "all histories, all points", "why_tests_cant": "Depends on mutation history.", "anchors": ["ciropt/function.py:Function.oracle"]}
{"id": "C07", "title": "Sums of functions are evaluated consistently", "statement": "After oracle on a weighted sum F = sum w_i f_i (non-zero weights), gradient and value recorded for F equal sum w_i g_i and sum w_i v_i where (g_i, v_i) are recorded samples of f_i at the same point, whichever f_i were evaluated there before. The same holds after add_point on a sum if some f_i was not evaluated there before; if all were, the recorded gradient is not tied to theirs (violated corner).", "quantifier": "all decompositions, all prior evaluation histories", "why_tests_cant": "The set of functions already evaluated at the point is arbitrary.", "anchors": ["ciropt/function.py:Function.add_point", "ciropt/function.py:Function.oracle", "ciropt/function.py:Function._separate_leaf_functions_regarding_their_need_on_point"]}
{"id": "C08", "title": "stationary_point has zero gradient", "statement": "stationary_point returns a fresh leaf point, a gradient denoting the zero vector and a fresh value, and records the triplet as a sample and as a stationary point of the function.", "quantifier": "all functions (leaf or sum), all histories", "why_tests_cant": "All histories.", "anchors": ["ciropt/function.py:Function.stationary_point", "ciropt/function.py:Function.add_point"]}
{"id": "C09", "title": "proximal_step and subgrad_conjugate are implicit steps", "statement": "proximal_step(x0,f,gamma) returns x, g, v with x + gamma*g = x0 where (x,g,v) is recorded as a sample of f; subgrad_conjugate(g,f) returns a fresh x with (x,g,.) recorded as a sample of f.", "quantifier": "all points, step sizes (symbolic or numeric), functions, histories", "why_tests_cant": "All histories and symbolic step sizes.", "anchors": ["ciropt/function.py:proximal_step", "ciropt/function.py:subgrad_conjugate"]}
{"id": "C10", "title": "Interpolation constraints: one per ordered pair, in index order", "statement": "For a function with n pairwise distinct recorded samples, the class constraints appended are exactly n(n-1), and the one consumed at loop indices (i,j), i != j, is the inequality of the ordered pair (sample i, sample j) of the declared class.", "quantifier": "all n, all sample lists, all classes", "why_tests_cant": "Unbounded number of samples; index arithmetic.", "anchors": ["ciropt/function.py:ConvexFunction.add_class_constraints", "ciropt/function.py:SmoothStronglyConvexFunction.add_class_constraints", "ciropt/function.py:StronglyConvexFunction.add_class_constraints", "ciropt/circuit_opt.py:CircuitOpt.circuit_symbolic_matrices"]}
{"id": "C11", "title": "Interpolation inequalities hold for every function of the class", "statement": "For every real inner product space and every function in the declared class (convex; mu-strongly convex; convex with L-Lipschitz gradient; mu-strongly convex with L-Lipschitz gradient, 0 <= mu < L), any two samples (x, subgradient, value) satisfy the inequality the code generates for the class.", "quantifier": "all Hilbert spaces, all functions of the class, all sample points", "why_tests_cant": "Infinite-dimensional quantifier over functions.", "anchors": ["ciropt/function.py:ConvexFunction", "ciropt/function.py:StronglyConvexFunction", "ciropt/function.py:SmoothStronglyConvexFunction", "ciropt/function.py:SmoothConvexFunction"]}
{"id": "C12", "title": "Function declaration picks the class determined by (mu, L)", "statement": "define_function/def_function(mu,L) declares the class whose members are exactly: convex (mu=0,L=inf), strongly convex (mu!=0,L=inf), smooth convex (mu=0,L<inf), smooth strongly convex (mu!=0,L<inf), with those mu and L; gradients are reused iff L < inf.", "quantifier": "all mu, all L including infinity", "why_tests_cant": "All numeric pairs.", "anchors": ["ciropt/utils.py:define_function", "ciropt/function.py:def_function"]}
{"id": "C13", "title": "Matrix form of an expression is exact and symmetric", "statement": "For an expression over the current leaves without constant term, <F,Fweights> + <G,Gweights> equals its value for every Gram matrix G of the leaf points and vector F of leaf values, and Gweights is symmetric.", "quantifier": "all expressions, parameter values, inner product spaces, leaf values", "why_tests_cant": "All Gram matrices and decompositions.", "anchors": ["ciropt/circuit_opt.py:CircuitOpt._expression_to_matrix"]}
{"id": "C14", "title": "Constant terms are honoured by the solver (violated)", "statement": "Adding a constraint or metric containing a numeric constant keeps the constant in the problem handed to the solver. The code drops it: the matrix form differs from the expression by exactly the constant, and a certificate can exist for a metric that is positive on a feasible instance.", "quantifier": "all expressions with a constant term", "why_tests_cant": "Silent semantic loss, no exception is raised.", "anchors": ["ciropt/circuit_opt.py:CircuitOpt._expression_to_matrix", "ciropt/expression.py:Expression.__add__"]}
{"id": "C15", "title": "Symbolic matrices enumerate every constraint once, inequalities first", "statement": "The ordered dictionary built for the solver has exactly one entry per extra inequality, per ordered sample pair of each leaf function, per equality, plus the objective last; keys are distinct; inequalities precede equalities; the reported sizes are the counts.", "quantifier": "all lists of constraints and functions, any interleaving of equalities and inequalities", "why_tests_cant": "Unbounded lists; positions are later used as multiplier indices.", "anchors": ["ciropt/circuit_opt.py:CircuitOpt.circuit_symbolic_matrices"]}
{"id": "C16", "title": "Solving a problem twice (violated)", "statement": "A problem can be solved again. In the code, every solve appends the class constraints again, so a second solve of the same problem raises AssertionError iff some leaf function has at least two recorded samples.", "quantifier": "all problems", "why_tests_cant": "Depends on accumulated state over repeated calls.", "anchors": ["ciropt/circuit_opt.py:CircuitOpt.circuit_symbolic_matrices", "ciropt/function.py:ConvexFunction.add_class_constraints"]}
{"id": "C17", "title": "Aggregated dual matrices are the multiplier-weighted sums", "statement": "The aggregated F and G matrices equal the sum over all constraints of (multiplier symbol) x (constraint matrix), each multiplier symbol being used for exactly one constraint.", "quantifier": "all constraint lists, all multiplier values and parameter values", "why_tests_cant": "Unbounded sums with generated names.", "anchors": ["ciropt/circuit_opt.py:CircuitOpt.circuit_symbolic_matrices"]}
{"id": "C18", "title": "Coefficient matrices reproduce the symbolic matrices", "statement": "For each symbolic matrix entry and every parameter value, the entry equals the coefficient row times the vector of monomial values, whatever order monomials are discovered in.", "quantifier": "all symbolic matrices, all parameter names without underscore, all parameter values", "why_tests_cant": "Growing shared name table while scanning arbitrary polynomials.", "anchors": ["ciropt/sympy_parsing.py:sp_v_coeff_matrix", "ciropt/sympy_parsing.py:vars_to_vector", "ciropt/sympy_parsing.py:evaluate_monomial"]}
{"id": "C19", "title": "The monomial table is duplicate-free and prefix-closed", "statement": "The table of monomial names has no duplicates, starts with 1 and the parameters, and each product name has its one-shorter prefix and its last factor (if it is a parameter) in the table, so that the quadratic constraints built from it never fail a lookup and determine each product variable.", "quantifier": "all symbolic matrices", "why_tests_cant": "Arbitrary discovery order.", "anchors": ["ciropt/sympy_parsing.py:sp_v_coeff_matrix", "ciropt/circuit_opt.py:CircuitOpt.solve_ipopt_qcqp"]}
{"id": "C20", "title": "Linearizing then collapsing a polynomial is the identity", "statement": "collapse_expression(linearize_expression(e)) denotes the same polynomial as e, and linearize_expression(e) evaluated with each long symbol set to the product of its parts equals e, when parameter names have no underscore; with underscores the parameter a_b is silently read as the product a*b.", "quantifier": "all polynomials and parameter values", "why_tests_cant": "All polynomials.", "anchors": ["ciropt/sympy_parsing.py:linearize_expression", "ciropt/sympy_parsing.py:collapse_expression"]}
{"id": "C21", "title": "Dual symbol names decode to the multiplier they were made for", "statement": "The name made for multiplier (function k, i, j) is recognised as an inequality (resp. equality) multiplier, decodes to exactly the prefix and indices it was made from, two multipliers never share a name, and no discretization parameter of the package is mistaken for a multiplier. Parameters whose name starts with lamb or nu are mistaken.", "quantifier": "all indices", "why_tests_cant": "Unbounded indices, string encoding.", "anchors": ["ciropt/sympy_to_solvers.py:find_lambda_nu", "ciropt/sympy_to_solvers.py:sympy_expression_to_casadi_lamb", "ciropt/circuit_opt.py:CircuitOpt.circuit_symbolic_matrices"]}
{"id": "C22", "title": "Lifted product variables are exact", "statement": "Converting a polynomial to solver variables adds auxiliary variables and constraints such that in every point satisfying the solver constraints the converted expression equals the polynomial at the parameter values, and every parameter assignment extends to the auxiliary variables.", "quantifier": "all polynomials, all sequences of conversions, all assignments", "why_tests_cant": "Stateful accumulation of auxiliary variables.", "anchors": ["ciropt/sympy_to_solvers.py:ca_linearize_monomial", "ciropt/sympy_to_solvers.py:sympy_expression_to_casadi", "ciropt/sympy_to_solvers.py:sympy_expression_to_casadi_lamb"]}
{"id": "C23", "title": "Packed lower-triangular P gives P P^T", "statement": "get_PPt_element on the packed vector equals entry (k1,k2) of P P^T for the lower triangular P stored row by row; flatten_lower_tri is the packing; the diagonal selector picks exactly the diagonal entries; the matrix version gives the same number.", "quantifier": "all sizes and entries", "why_tests_cant": "All dimensions.", "anchors": ["ciropt/utils.py:get_PPt_element", "ciropt/utils.py:get_PPt_matrix", "ciropt/utils.py:flatten_lower_tri", "ciropt/circuit_opt.py:CircuitOpt.solve_ipopt_qcqp"]}
{"id": "C24", "title": "Selection matrices select the slice", "statement": "get_vec_var with matrix=True times x equals get_vec_var with matrix=False, and the blocks v, lamb, nu, P partition x.", "quantifier": "all block sizes and vectors", "why_tests_cant": "All dimensions.", "anchors": ["ciropt/utils.py:get_vec_var", "ciropt/circuit_opt.py:CircuitOpt.solve_ipopt_qcqp_matrix"]}
{"id": "C25", "title": "Multiplier packing round-trips", "statement": "flatten_lamb(reshape_lamb_2d(l)) = l for every l of length n(n-1), n >= 1, and reshape_lamb_2d(flatten_lamb(M)) is M with zero diagonal.", "quantifier": "all n >= 1", "why_tests_cant": "All dimensions.", "anchors": ["ciropt/utils.py:reshape_lamb_2d", "ciropt/utils.py:flatten_lamb"]}
{"id": "C26", "title": "A feasible point of the direct nonlinear program is a proof of the descent lemma", "statement": "If an assignment satisfies the constraints built by solve_ipopt, then for every inner product space, every choice of functions in the declared classes and every execution satisfying the recorded samples and extra constraints with those parameter values, the performance metric is <= 0.", "quantifier": "all problems without constant terms, all feasible assignments, all Hilbert spaces, functions and executions", "why_tests_cant": "The guarantee quantifies over all functions in infinite-dimensional classes.", "anchors": ["ciropt/circuit_opt.py:CircuitOpt.solve_ipopt", "ciropt/circuit_opt.py:CircuitOpt.circuit_symbolic_matrices", "ciropt/sympy_to_solvers.py:sympy_matrix_to_casadi"]}
{"id": "C27", "title": "QCQP formulation is sound and agrees with the direct formulation", "statement": "x is feasible for solve_ipopt_qcqp iff it packs parameters, multipliers and a triangular P feasible for the direct dual equations with the product variables equal to the products; hence feasibility certifies metric <= 0.", "quantifier": "all problems, all x", "why_tests_cant": "All dimensions and polynomials.", "anchors": ["ciropt/circuit_opt.py:CircuitOpt.solve_ipopt_qcqp"]}
{"id": "C28", "title": "Matrix QCQP formulation equals the QCQP formulation", "statement": "The equalities and inequalities of solve_ipopt_qcqp_matrix hold at x iff those of solve_ipopt_qcqp do, up to the four explicit 1e-7 lower bounds the latter adds.", "quantifier": "all problems, all x", "why_tests_cant": "All dimensions.", "anchors": ["ciropt/circuit_opt.py:CircuitOpt.solve_ipopt_qcqp_matrix", "ciropt/utils.py:get_PPt_matrix"]}
{"id": "C29", "title": "Fixed-parameter SDP is sound and equivalent at those parameters", "statement": "A feasible (lambda,nu,Z) of solve_fix_discr_sdp with given parameters certifies metric <= 0 at these parameters, and one exists iff the direct dual equations have a solution at these parameters.", "quantifier": "all parameter values", "why_tests_cant": "All functions and spaces.", "anchors": ["ciropt/extra_methods.py:solve_fix_discr_sdp"]}
{"id": "C30", "title": "SDP relaxation contains every QCQP point", "statement": "For every point of the dual system with alpha,beta in [-1,1], eta,h >= 1e-5, rho >= 0, the lifted point X = xx^T, Z = PP^T satisfies all constraints of solve_sdp_relax; so its optimum is an upper bound on the objective (eta unless assigned) over such points.", "quantifier": "all QCQP feasible points", "why_tests_cant": "All dimensions.", "anchors": ["ciropt/extra_methods.py:solve_sdp_relax"]}
{"id": "C31", "title": "Halving search on eta", "statement": "If solve_bisection_eta stops early it returns eta0/2^t with params['eta'] equal to it, it is reported optimal, and all eta0/2^s, s<t, were not; if all max_iters attempts fail it returns an eta that was never tested and differs from params['eta'].", "quantifier": "all solvers (as oracles that may also raise), all start values and iteration limits", "why_tests_cant": "Unbounded loop with external solver.", "anchors": ["ciropt/extra_methods.py:solve_bisection_eta"]}
{"id": "C32", "title": "Every real execution is represented by the symbolic problem", "statement": "For any program of API calls without errors and any real execution of it (vectors for initial points, functions of the declared classes, subgradients at oracle calls, minimizers at stationary points), there are leaf values under which every point, gradient and value created denotes the corresponding real vector or number and all recorded samples are true samples.", "quantifier": "all programs, all spaces, functions, executions", "why_tests_cant": "Simulation over unbounded programs.", "anchors": ["ciropt/function.py:Function.oracle", "ciropt/function.py:Function.add_point", "ciropt/function.py:proximal_step"]}
{"id": "C33", "title": "Certificates imply convergence over all iterations", "statement": "If each step satisfies E_{k+1} - E_k + Delta_k <= 0 then for every N E_N + sum Delta_k <= E_0. For every circuit builder whose program can be chained (all but douglas_rachford_splitting and davis_yin_splitting), a feasible point of the nonlinear program with positive weights eta, rho implies convergence of every run of the discretized algorithm, for all functions of the class with a solution and all starts: the optimality gaps are summable or tend to zero, the nodes of the consensus and decentralized ADMM circuits agree in the limit and the value of the sum tends to the minimum, and for strongly convex functions the points tend to the solution (for dgd and diffusion: to the equilibrium of the circuit).", "quantifier": "all iteration counts, functions of the class, starting points, inner-product spaces, and numbers of functions where the builder takes one", "why_tests_cant": "Unbounded iteration.", "anchors": ["ciropt/classical_central_vi.py:gradient_flow_circuit", "ciropt/classical_central_vi.py:gradient_flow_circuit_tuneC", "ciropt/classical_central_vi.py:ppm_circuit", "ciropt/classical_central_vi.py:accelerated_gradient_circuit", "ciropt/classical_central_vi.py:accelerated_gradient_circuit_tuneRLC", "ciropt/classical_central_vi.py:prox_gradient_circuit", "ciropt/classical_central_vi.py:primal_decomposition", "ciropt/classical_central_vi.py:dual_decomposition", "ciropt/classical_central_vi.py:admm_consensus", "ciropt/classical_central_vi.py:admm_euler_consensus", "ciropt/classical_central_vi.py:admm_consensus_proof", "ciropt/classical_decentral_vi.py:decentralized_gradient_descent_line3", "ciropt/classical_decentral_vi.py:diffusion_line3", "ciropt/classical_decentral_vi.py:pg_extra_l3", "ciropt/classical_decentral_vi.py:decentralized_admm_consensus_l3", "ciropt/classical_decentral_vi.py:decentralized_admm_cycle4", "ciropt/classical_decentral_vi.py:decentralized_admm_graph6", "ciropt/new_algorithms_vi.py:dadmm_C_graph6", "ciropt/new_algorithms_vi.py:example_fC3RC_circuit", "ciropt/circuit_opt.py:CircuitOpt.set_performance_metric"]}
{"id": "C34", "title": "Per-circuit one-step guarantee", "statement": "For each modelled circuit builder, a feasible dual point at given parameters implies the builder's energy inequality E_2 <= E_1 - Delta_1 for every choice of functions in the classes and every step of the discretized algorithm written in closed form.", "quantifier": "all functions, starting states, parameters", "why_tests_cant": "All functions and spaces.", "anchors": ["ciropt/classical_central_vi.py", "ciropt/classical_decentral_vi.py", "ciropt/new_algorithms_vi.py"]}
{"id": "C35", "title": "Currents into a net sum to zero (KCL)", "statement": "In the consensus circuits the inductor currents sum to zero at steps 1, 1.5 and 2 for every number of functions. Holds for dual_decomposition and admm_euler_consensus; violated at step 1.5 in admm_consensus, which uses the unnormalised sum of potentials.", "quantifier": "all numbers of functions, parameter values, executions", "why_tests_cant": "Unbounded number of functions.", "anchors": ["ciropt/classical_central_vi.py:dual_decomposition", "ciropt/classical_central_vi.py:admm_consensus", "ciropt/classical_central_vi.py:admm_euler_consensus"]}
{"id": "C36", "title": "Bounds constrain the named variable only (violated)", "statement": "bounds={name:...} constrains variable name and nothing else. Holds when every name is known; an unknown name silently applies the bound to the previously named variable, or raises if it is first.", "quantifier": "all bound dictionaries", "why_tests_cant": "All dictionaries and orders.", "anchors": ["ciropt/utils.py:ca_add_bounds", "ciropt/utils.py:cvx_add_bounds"]}
{"id": "C37", "title": "Solver dispatch and result shape", "statement": "solve(solver=s) runs the solver named s; unknown names return None without error; on solver failure the NLP solvers return a 4-tuple whose first component is None and on success a 3-tuple whose first component maps exactly the known parameters to their values.", "quantifier": "all solver names and outcomes", "why_tests_cant": "External solver outcomes.", "anchors": ["ciropt/circuit_opt.py:CircuitOpt.solve", "ciropt/utils.py:dict_parameters_ciropt"]}
{"id": "C38", "title": "Degree check on the performance metric (violated)", "statement": "set_performance_metric rejects metrics whose degree exceeds 2. The check is vacuous: every Expression is accepted; check_degree_expression is correct on polynomials.", "quantifier": "all expressions", "why_tests_cant": "All polynomials.", "anchors": ["ciropt/circuit_opt.py:CircuitOpt.set_performance_metric", "ciropt/sympy_parsing.py:check_degree_expression"]}
{"id": "C39", "title": "Evaluating unsolved objects (violated)", "statement": "Evaluating a constraint of an unsolved problem raises ValueError. Point.eval and Expression.eval do, Constraint.eval raises TypeError; and since no solver stores leaf values, this is also the behaviour after solve.", "quantifier": "all expressions mentioning a leaf", "why_tests_cant": "All decompositions.", "anchors": ["ciropt/constraint.py:Constraint.eval", "ciropt/point.py:Point.eval", "ciropt/expression.py:Expression.eval"]}
{"id": "C40", "title": "Problems are isolated from each other (old ones are not: violated)", "statement": "Creating a second CircuitOpt does not affect the first. In the code it resets the global registries: afterwards the first problem is translated with dimensions and leaf functions of the second. A new problem itself is not affected by the past: whatever was done before in the interpreter, building and solving it gives the same result or exception as in a fresh interpreter, so certificates stay sound.", "quantifier": "all interpreter histories, programs, solvers; all pairs of problems", "why_tests_cant": "Cross-object interference.", "anchors": ["ciropt/circuit_opt.py:CircuitOpt._reset_classes", "ciropt/circuit_opt.py:CircuitOpt.solve_ipopt"]}
{"id": "C41", "title": "Reciprocal parameters", "statement": "For parameters named inv+v the solver enforces v * inv_v = 1 and v > 0. inv_discr_params recognises exactly names with prefix inv when inv occurs in no other position; a name containing inv elsewhere is mangled.", "quantifier": "all parameter lists", "why_tests_cant": "All names.", "anchors": ["ciropt/utils.py:inv_discr_params", "ciropt/circuit_opt.py:CircuitOpt.solve_ipopt"]}
{"id": "C42", "title": "Decentralised ADMM conserves edge currents", "statement": "In dadmm, for variants dadmm and cir_dadmm, after every iteration the two inductor currents of each edge sum to zero and the edge potential is the same seen from both ends; in cir_dadmm_c this holds off the capacitor edge and potentials agree on every edge.", "quantifier": "all graphs, prox operators, iteration counts, parameters", "why_tests_cant": "All graphs and iteration counts.", "anchors": ["ciropt/discretized_methods.py:dadmm"]}
{"id": "C43", "title": "Fixed points of decentralised ADMM are consensual optima", "statement": "If an iteration of dadmm leaves the state unchanged (non-zero step, connected graph), all nodes agree and the common value minimises the sum of the functions when prox operators are true proximal maps.", "quantifier": "all graphs, functions", "why_tests_cant": "All graphs and functions.", "anchors": ["ciropt/discretized_methods.py:dadmm"]}
{"id": "C44", "title": "PG-EXTRA conserves the sum of the correction terms", "statement": "In pg_extra, the correction vectors of all nodes sum to zero after every iteration when the columns of W sum to 1, and a fixed point with W connected is consensual and optimal.", "quantifier": "all mixing matrices, functions, iteration counts", "why_tests_cant": "Unbounded iterations.", "anchors": ["ciropt/discretized_methods.py:pg_extra"]}
{"id": "C45", "title": "PG-EXTRA with parallel capacitor: currents", "statement": "In pg_extra_par_c inductor and capacitor currents are antisymmetric on every edge after every iteration when W is symmetric, and the capacitor current is always the closed form (C/h)(W_jl/R)(x_j - x_l): it depends on the present voltage only, not on its change.", "quantifier": "all graphs, operators, iteration counts", "why_tests_cant": "Unbounded iterations.", "anchors": ["ciropt/discretized_methods.py:pg_extra"]}
{"id": "C46", "title": "Metropolis-Hastings weights are a symmetric doubly stochastic matrix", "statement": "For every finite simple graph the matrix W built from it is symmetric, has row sums 1, nonnegative entries, positive diagonal, and is zero off the edges.", "quantifier": "all graphs", "why_tests_cant": "All graphs.", "anchors": ["opt_problems/decentr_qp.py:graph_generation", "opt_problems/decentr_geom_median.py:graph_generation_nodes6"]}
{"id": "C47", "title": "Closed-form prox operators are proximal maps", "statement": "The closed-form prox operators of the example problems return the unique minimiser of f(x) + |x-z|^2/(2 rho), for every input where no division by zero occurs.", "quantifier": "all inputs, dimensions, data", "why_tests_cant": "All real inputs.", "anchors": ["opt_problems/decentr_qp.py:prox_fj_quad_constraint", "opt_problems/decentr_geom_median.py:prox_fj_geom_mean", "opt_problems/decentr_geom_median.py:prox_fj_geom_mean_sc", "opt_problems/decentr_ell2_Anorm.py:prox_fj_geom_mean_sc"]}
{"id": "C48", "title": "grid_search returns the first minimiser", "statement": "grid_search returns the first parameter attaining the least average; for an empty list, or when no average is below infinity, it raises. The first exception of a run is passed on. A run whose list is shorter than the averaging window is scored as if the missing entries were zero.", "quantifier": "all parameter lists and objective values", "why_tests_cant": "All lists.", "anchors": ["ciropt/utils.py:grid_search"]}
{"id": "C49", "title": "matrix_to_diff_psd splits a symmetric matrix into PSD parts", "statement": "For a symmetric A with any orthonormal eigendecomposition, both returned parts are positive semidefinite and their difference is A. For matrices that are not symmetric, which the function also accepts, the first part need not be positive semidefinite.", "quantifier": "all symmetric matrices, all eigendecompositions returned by the linear algebra library", "why_tests_cant": "All matrices.", "anchors": ["ciropt/utils.py:matrix_to_diff_psd"]}
{"id": "C50", "title": "Numeric equality of expressions", "statement": "equal_expression is reflexive; it is symmetric and returns True exactly when all coefficients of the two collapsed polynomials agree up to 1e-8, unless an expression with symbols collapses to a number while the other is a number (then a relative tolerance of 1e-5 applies and the order of the arguments matters); it is not transitive. equal_sp_arrays compares entry by entry after squeezing; comparing a vector of one entry with a 1x1 matrix raises IndexError.", "quantifier": "all polynomials", "why_tests_cant": "All polynomials.", "anchors": ["ciropt/sympy_parsing.py:equal_expression", "ciropt/sympy_parsing.py:is_zero_expr", "ciropt/sympy_parsing.py:equal_sp_arrays"]}
{"id": "C51", "title": "Gurobi variable names (violated)", "statement": "solve_gp registers multiplier variables under the names the symbolic matrices use, and its feasible points are certificates. The format string lamb%rho produces names ending in ho, so lookups of every interpolation multiplier fail and the call raises as soon as a function has two samples with different values. When the call does not raise (no interpolation inequality is needed), every feasible point is a valid certificate, the documented boxes are the only constraints on the variables, and the returned dictionary leaves out gamma.", "quantifier": "all function indices; all problems, bounds, feasible points, functions and executions", "why_tests_cant": "All indices.", "anchors": ["ciropt/extra_methods.py:solve_gp"]}
{"id": "C52", "title": "Decentralised ADMM converges under the step condition", "statement": "On a connected simple network with convex functions and exact proximal operators, for positive parameters with h*R/(2*Inductance) < 1 (cir_dadmm) or h*R/(2*Inductance) + h/(R*Capacitance) < 1 (cir_dadmm_c, which integrates one edge through a capacitor), and always for dadmm, the recorded function values of a run tend to the optimal value, the nodes' points approach each other, and if the functions are strongly convex the recorded distances to the solution are square summable and tend to zero (then also when the bound is attained). In finite dimension the points of all nodes converge to one and the same minimiser without strong convexity, and the recorded distances tend to zero when the minimiser is unique. The bound on h*R/Inductance is sharp: for every step with h*R/Inductance >= 2 there is a two-node problem on which the nodes never agree, and beyond it the points diverge.", "quantifier": "all networks, node functions, dimensions, parameters and iteration counts", "why_tests_cant": "Convergence is a statement about unboundedly many iterations and all functions.", "anchors": ["ciropt/discretized_methods.py:dadmm"]}
{"id": "C53", "title": "PG-EXTRA and its circuit variant converge under a step condition", "statement": "With symmetric doubly stochastic connected weights, convex node functions with exact proximal operators and convex smooth parts with L-Lipschitz gradients, and a step size below the stated bound, the recorded squared steps of pg_extra and pg_extra_par_c are summable, the recorded values tend to the optimal value, the points of the nodes approach each other, and with strong convexity the recorded distances to the solution are square summable and tend to zero. For Metropolis-Hastings weights on a graph of degree at most d the bound for pg_extra is rho*L < 2/(d+1). In finite dimension the points of all nodes converge to one and the same minimiser without strong convexity.", "quantifier": "all networks, node functions, dimensions, parameters and iteration counts", "why_tests_cant": "Convergence is a statement about unboundedly many iterations and all functions.", "anchors": ["ciropt/discretized_methods.py:pg_extra"]}
{"id": "C54", "title": "The circuit variants contain the textbook methods", "statement": "dadmm called as cir_dadmm with inductance h*R returns exactly what it returns as dadmm with the same R, exceptions included. pg_extra called as pg_extra_par_c with h=1/2, no capacitor and row-stochastic weights supported on the graph returns the same lists as pg_extra with rho=R whenever it raises no exception.", "quantifier": "all networks, functions, proximal operators, step sizes and iteration counts", "why_tests_cant": "Equality of two loops must hold for every iteration count and every input.", "anchors": ["ciropt/discretized_methods.py:dadmm", "ciropt/discretized_methods.py:pg_extra"]}
{"id": "C55", "title": "The solvers of the example problems converge", "statement": "On a connected simple network with Metropolis-Hastings weights: p_extra_dgeom_median of decentr_geom_median.py and decentr_ell2_Anorm.py, for every positive step size, and pg_extra_compressed_sensing with alpha*L < 2/(d+1) (d bounds the degrees, L the squared norms of the sensing blocks) drive the points of all nodes to one and the same minimiser of the sum of the node functions, and the recorded relative differences of values to zero, as far as no NaN occurs; the recorded distances tend to zero if the minimiser is unique. obtain_opt_prob_solution of compressed sensing approaches a minimiser and the optimal value. The geometric median problem has a minimiser, unique for n > 3 and theta > 0; if all data points coincide, p_extra_dgeom_median records only NaN.", "quantifier": "all networks, data, start points, step sizes in the range and iteration counts", "why_tests_cant": "Limits over unbounded iteration counts, for every network and all data.", "anchors": ["opt_problems/decentr_geom_median.py:p_extra_dgeom_median", "opt_problems/decentr_ell2_Anorm.py:p_extra_dgeom_median", "opt_problems/decentr_compressed_sensing.py:pg_extra_compressed_sensing", "opt_problems/decentr_compressed_sensing.py:obtain_opt_prob_solution"]}
{"id": "C56", "title": "The recorded operator norm of compressed sensing is a decreasing residual", "statement": "Mnormsq is nonnegative, equals the square of Mnorm, and vanishes only at zero on the pairs the method produces. The op_norm values recorded by pg_extra_compressed_sensing are nonnegative for every step size; under the step condition of C55 they never increase and are at most B/(k+1) at iteration k.", "quantifier": "all connected simple networks, every singular value decomposition, all data, start points and iteration counts", "why_tests_cant": "Monotonicity and the rate must hold at every iteration for all data; the decomposition is not unique.", "anchors": ["opt_problems/decentr_compressed_sensing.py:Minner", "opt_problems/decentr_compressed_sensing.py:Mnormsq", "opt_problems/decentr_compressed_sensing.py:Mnorm", "opt_problems/decentr_compressed_sensing.py:pg_extra_compressed_sensing", "opt_problems/decentr_compressed_sensing.py:graph_generation_nodes6"]}
{"id": "C57", "title": "The assigned objective is what is optimised, and nothing else depends on it", "statement": "Assigning problem.obj changes only what the solvers maximise: the script runs as without the assignment, and which parameter values are certified is the same. For the direct and the quadratic program, the values the minimised objective takes at feasible points are exactly minus the values of the assigned objective at the certified parameter values, so a minimiser returns certified parameters at which no other certified parameters do better. An objective assigned before set_performance_metric is silently replaced by eta.", "quantifier": "all scripts over a set of simple symbols, all polynomial objectives assigned at any points of the script, all bounds, all feasible points", "why_tests_cant": "A test solves a few problems numerically with a local solver; the claim compares the sets of attainable objective values over all real parameter values and all objectives.", "anchors": ["ciropt/circuit_opt.py:CircuitOpt.set_performance_metric", "ciropt/circuit_opt.py:CircuitOpt.obj", "ciropt/circuit_opt.py:solve_ipopt", "ciropt/circuit_opt.py:solve_ipopt_qcqp", "ciropt/circuit_opt.py:solve_ipopt_qcqp_matrix", "ciropt/sympy_to_solvers.py:sympy_expression_to_casadi", "ciropt/sympy_to_solvers.py:sympy_expression_to_cvx"]}
{"id": "C58", "title": "Conversion between matrices of linear expressions and coefficient tables loses nothing", "statement": "linear_matrix_expr_to_coeff_matrix accepts a matrix exactly when every entry is an affine combination of the listed symbols with literal coefficients, and otherwise raises AssertionError or KeyError. The row of an accepted entry, multiplied with the values of the symbols, is the value of the entry. coeff_matrix_to_linear_matrix_expr gives back expressions equal to the entries, and converting a table to expressions and back returns the table. Applied to the matrices of a problem, with the table of sp_v_coeff_matrix, it returns the coefficients sp_v_coeff_matrix returned. const_coeff_expr agrees on affine expressions, but on an expression with an unlisted symbol it silently overwrites another coefficient, or raises UnboundLocalError when no listed symbol comes before.", "quantifier": "all matrices of symbolic expressions, all tables of symbols, all coefficient tables, all problems", "why_tests_cant": "The round trip must hold for every expression and every table, and rejection for every nonlinear expression.", "anchors": ["ciropt/sympy_parsing.py:linear_matrix_expr_to_coeff_matrix", "ciropt/sympy_parsing.py:coeff_matrix_to_linear_matrix_expr", "ciropt/sympy_parsing.py:const_coeff_expr", "ciropt/sympy_parsing.py:sp_v_coeff_matrix"]}
{"id": "C59", "title": "The factor of a symmetric matrix is triangular and dominates the matrix", "statement": "cholseky_matrix returns, for every symmetric matrix, a lower triangular factor P with positive diagonal such that P P^T is at least eps times the identity and at least the matrix, is the matrix itself when no eigenvalue is below eps, and for a positive semidefinite matrix exceeds it by at most eps times the identity.", "quantifier": "all symmetric matrices of every size, all eps > 0, every eigendecomposition numpy may return", "why_tests_cant": "The bounds must hold for every matrix, every size and every choice of eigenvectors.", "anchors": ["ciropt/utils.py:cholseky_matrix"]}
{"id": "C60", "title": "The returned histories are about the iterations they claim to be about", "statement": "Every list a numerical method returns has one entry per iteration (const_vio of dadmm, pg_extra and the median problems stays empty). Entry k of err_opt_star is the distance of the points after k+1 iterations to x_opt_star, entry k of err_opt_reldiff is that distance divided by the distance of the start points, entry k of f_reldiff is the error of the value divided by f_star. A shorter run returns the beginnings of the lists of a longer run. For strongly convex functions the relative distances tend to zero. With negative f_star dadmm records values that are never positive, pg_extra never negative ones. In the median problems a NaN spreads to all lists and all later entries.", "quantifier": "all graphs, functions, parameters, start and reference points, all iteration counts", "why_tests_cant": "The correspondence must hold for every iteration of every run and between runs of different length.", "anchors": ["ciropt/discretized_methods.py:dadmm", "ciropt/discretized_methods.py:pg_extra", "opt_problems/decentr_geom_median.py:p_extra_dgeom_median", "opt_problems/decentr_ell2_Anorm.py:p_extra_dgeom_median", "opt_problems/decentr_compressed_sensing.py:pg_extra_compressed_sensing"]}
{"id": "C61", "title": "The generated data has the properties the solvers rely on", "statement": "Whatever the random generator draws: the matrices Q_j of the quadratic program are symmetric positive semidefinite, with norm at most the squared Frobenius norm of the draw divided by n_node. The blocks A_j of the compressed sensing problem, unless drawn as zeros, are scaled versions of the draw with Frobenius norm 1 and do not lengthen a vector; the measurements differ from those of the true signal by a hundredth of the drawn noise; the true signal contains the n_nonzero_entry drawn numbers at distinct places and zeros elsewhere. The matrices P_j of the A-norm problem are symmetric with all eigenvalues between 2 and 1001; data points and centres lie in [-100, 100). Hence on the 6-node network pg_extra_compressed_sensing converges to a solution of the generated problem for every step below 2/5, and the A-norm method raises no exception and its value errors tend to zero.", "quantifier": "all draws of the random generator, all vector sizes, sensor counts and node counts", "why_tests_cant": "A test uses one seed; the properties have to hold for every draw, and convergence is about all iterations.", "anchors": ["opt_problems/decentr_qp.py:data_generation", "opt_problems/decentr_compressed_sensing.py:data_generation", "opt_problems/decentr_ell2_Anorm.py:data_generation", "opt_problems/decentr_geom_median.py:data_generation"]}
{"id": "C62", "title": "The decentralised quadratic program is solved, from the generated data to the reported numbers", "statement": "If some point satisfies the drawn constraints and no direction is mapped to zero by all drawn matrices, the quadratic program has exactly one solution. If in addition some point satisfies the constraints strictly and the step is small enough for the largest drawn matrix and the largest degree of the network, pg_extra with the proximal operators, gradients and values of the experiment drives the points of all nodes to this solution; the reported distances and (for a nonzero optimal value) relative value errors tend to zero. On the experiment's 20-node network it suffices that rho times the largest sum of squares of the entries of a drawn matrix is below 20/3; the circuit variant with R = 0.07, h = 0.8, Capacitance = 0.3 converges for sums of squares up to 23.", "quantifier": "all draws with a strictly feasible point and no common null direction, all vector sizes, all connected simple networks, all admissible parameters, both variants of pg_extra", "why_tests_cant": "Convergence is about all iterations, and must hold for every draw.", "anchors": ["opt_problems/decentr_qp.py:data_generation", "opt_problems/decentr_qp.py:prox_fj_quad_constraint", "opt_problems/decentr_qp.py:grad_hj_quad_constraint", "opt_problems/decentr_qp.py:graph_generation", "ciropt/discretized_methods.py:pg_extra"]}
{"id": "C63", "title": "Building the nonlinear programs fails only for the documented reasons", "statement": "For a script that runs without error, uses only the discretization parameters (with simple names) and declares classes with sensible constants, solve(solver=\"ipopt\") builds its nonlinear program without any exception exactly when the script has set a performance metric and no function has the same sample recorded twice. It then returns the dictionary if the external solver reports success, None values if the solver raises, and raises AssertionError if it returns without success; nothing else can happen. The QCQP formulation needs in addition one constraint (an extra one or a function with two samples); otherwise it raises IndexError. At all parameter values that have a certificate the built program has a feasible point.", "quantifier": "all scripts over the modelling API, all parameter lists, bounds and initial values that name variables, all outcomes of the external solver", "why_tests_cant": "Absence of KeyError, AssertionError and IndexError in the name-based conversion of symbols must hold for every script, every number of functions and samples, and every behaviour of simplification.", "anchors": ["ciropt/circuit_opt.py:CircuitOpt.solve_ipopt", "ciropt/circuit_opt.py:CircuitOpt.solve_ipopt_qcqp", "ciropt/circuit_opt.py:CircuitOpt.solve", "ciropt/sympy_to_solvers.py:sympy_expression_to_casadi", "ciropt/utils.py:stack_vectors"]}
{"id": "C64", "title": "What a certificate says about trajectories that violate the extra constraints", "statement": "If the nonlinear program has a feasible point, there is a number K such that the performance metric is at most K times the total violation of the added constraints, for all functions of the classes and all executions. Consequently, where no such K exists the solver can find no certificate although the guarantee holds: for dgd_line3 with convex functions (mu = 0, any L, R, Capacitance) no feasible point has a positive step size, although the energy inequality with eta = rho = 0 is true for every step with h (L + 3/R) <= 2 Capacitance.", "quantifier": "all scripts, all feasible points, all function instances in all inner product spaces, all executions; for dgd_line3 all L, R, Capacitance", "why_tests_cant": "The bound ranges over all functions, all spaces and all sizes of the violation; infeasibility of a nonconvex program cannot be observed by running a local solver.", "anchors": ["ciropt/circuit_opt.py:CircuitOpt.solve_ipopt", "ciropt/circuit_opt.py:CircuitOpt.circuit_symbolic_matrices", "ciropt/circuit_opt.py:CircuitOpt.add_constraint", "ciropt/classical_decentral_vi.py:decentralized_gradient_descent_line3"]}
{"id": "C65", "title": "Initial values choose the starting point and nothing else", "statement": "Whatever initial values are passed to solve, Ipopt gets the same constraints and the same objective, and the problem object is left in the same state. With solver \"ipopt\" every variable named in init_vals starts at the given value and every other variable at 0; a name that is no variable is KeyError. With solver \"ipopt_qcqp\" x0 is the starting point if given; otherwise the blocks \"v\", \"lamb\", \"nu\", \"P\" of init_values start at the given values, or \"x\" sets the first entries, and everything else starts at 0. A feasible point that is passed back is a feasible start with the same objective value. Violated expectation: each formulation silently drops the keywords of the others, and the QCQP formulations silently ignore all other names, in particular the names of the parameters.", "quantifier": "all scripts, all three nonlinear formulations, all dictionaries of initial values and all x0, all feasible points", "why_tests_cant": "That no initial value leaks into the constraints, that blocks never overlap and that a solution is a feasible restart must hold for every script and every dictionary.", "anchors": ["ciropt/circuit_opt.py:CircuitOpt.solve_ipopt", "ciropt/circuit_opt.py:CircuitOpt.solve_ipopt_qcqp", "ciropt/circuit_opt.py:CircuitOpt.solve_ipopt_qcqp_matrix", "ciropt/sympy_to_solvers.py:init_ca_ipopt"]}
{"id": "C66", "title": "The interpolation inequalities characterise the samples of a class", "statement": "For every function class with meaningful parameters and the default gradient policy, a finite list of triplets (point, gradient, value) satisfies the inequalities that solve imposes on all ordered pairs if and only if some function of the class has all of them as samples. So the inequalities never admit data that no function has. Violated expectation: with reuse_gradient=True on a class that need not be differentiable the inequalities admit data of no function with a single gradient per point.", "quantifier": "all four classes, all parameters, all finite lists of triplets in all real inner product spaces", "why_tests_cant": "The construction of an interpolating function must succeed for every list of triplets in every space; tests only see data generated from functions.", "anchors": ["ciropt/function.py:ConvexFunction.add_class_constraints", "ciropt/function.py:StronglyConvexFunction.add_class_constraints", "ciropt/function.py:SmoothStronglyConvexFunction.add_class_constraints", "ciropt/function.py:SmoothConvexFunction"]}
{"id": "C67", "title": "Values that satisfy the inequalities come from a real run of the method", "statement": "Let a script use sums of functions, with positive coefficients, only to ask for a stationary point, as all circuits do. Then any values of the leaf points and leaf expressions that satisfy the interpolation inequalities of the declared classes are the values in a real run of the script with functions of those classes: the points, expressions, constraints and the metric all have the values that the leaves give. With C32 the values in real runs are exactly those given by interpolating leaves. All circuits with a fixed number of functions are such scripts.", "quantifier": "all such scripts, all values of the leaves in all real inner product spaces, all parameter values", "why_tests_cant": "It asserts the existence of functions and of a run for every choice of leaf values.", "anchors": ["ciropt/circuit_opt.py:CircuitOpt.circuit_symbolic_matrices", "ciropt/function.py:Function.oracle", "ciropt/function.py:Function.stationary_point", "ciropt/function.py:Function.add_point", "ciropt/function.py:Function._separate_leaf_functions_regarding_their_need_on_point"]}
{"id": "C68", "title": "The nonlinear program misses no guarantee", "statement": "Let a script use sums of functions, with positive coefficients, only to ask for a stationary point, as all circuits do. At parameter values where the inequalities are strictly feasible, the nonlinear program that solve_ipopt builds has a feasible point with these parameter values if and only if the metric is nonpositive in all real runs with functions of the declared classes, in all spaces (and the parameters respect bounds, reciprocals and signs). Where it is infeasible there are functions on R^n, n the number of leaf points, and a run with them whose metric is positive. Strict feasibility cannot be dropped: see C64.", "quantifier": "all such scripts, all parameter values at which the inequalities are strictly feasible, all functions, spaces and runs", "why_tests_cant": "One direction asserts multipliers for every true guarantee, the other a counterexample for every false one; both are existence statements over all scripts and parameters.", "anchors": ["ciropt/circuit_opt.py:CircuitOpt.solve_ipopt", "ciropt/circuit_opt.py:CircuitOpt.circuit_symbolic_matrices", "ciropt/function.py:ConvexFunction.add_class_constraints", "ciropt/function.py:SmoothStronglyConvexFunction.add_class_constraints"]}
{"id": "C69", "title": "The circuits' nonlinear programs are feasible exactly at the parameters whose energy inequality is true", "statement": "Take the gradient flow circuit, the accelerated gradient circuit (both also with tuned circuit elements), the proximal point circuit, the proximal gradient circuit, Douglas-Rachford splitting, Davis-Yin splitting, the two-function ADMM circuit admm_consensus_proof and the fC3RC example circuit, with any class parameters (0 <= mu < L for the smooth function of the proximal gradient circuit and the functions of the two splittings and of the ADMM circuit), capacity, inductance and resistance. Building the problem and its nonlinear program by solve_ipopt raises no error, and at parameter values where the step does not degenerate (the method evaluates the function at different points) the nonlinear program has a feasible point with these parameters if and only if the energy inequality E_2 <= E_1 - Delta_1 holds for every function of the class, in every space, and every step of the discretization written out. So the tool finds every discretization that is dissipative, and each it rejects has a counterexample. For the two splittings and the ADMM circuit this holds at all parameter values, although the splittings impose an equality constraint: every run satisfies it.", "quantifier": "all class parameters and circuit elements, all discretization parameters outside explicitly given degenerate sets, all functions of the class, spaces and steps", "why_tests_cant": "It equates feasibility of a nonconvex program with an inequality over all functions in all dimensions, for all parameters.", "anchors": ["ciropt/classical_central_vi.py:gradient_flow_circuit", "ciropt/classical_central_vi.py:gradient_flow_circuit_tuneC", "ciropt/classical_central_vi.py:accelerated_gradient_circuit", "ciropt/classical_central_vi.py:accelerated_gradient_circuit_tuneRLC", "ciropt/classical_central_vi.py:ppm_circuit", "ciropt/classical_central_vi.py:prox_gradient_circuit", "ciropt/classical_central_vi.py:douglas_rachford_splitting", "ciropt/classical_central_vi.py:davis_yin_splitting", "ciropt/new_algorithms_vi.py:example_fC3RC_circuit", "ciropt/circuit_opt.py:CircuitOpt.solve_ipopt", "ciropt/classical_central_vi.py:admm_consensus_proof"]}
{"id": "C70", "title": "For gradient descent the tool finds exactly the known rates", "statement": "Take the gradient flow circuit with a convex L-smooth function and capacity C and fix beta = 1, so that the discretization is gradient descent with step h / C. The nonlinear program of solve_ipopt has a feasible point with parameters h, eta, rho (and any alpha other than 0 and 1) if and only if rho >= 0 and 0 <= eta <= min(h, 2 h - L h^2 / C). The largest eta at feasible points with beta = 1 is C / L, reached at the step 1 / L.", "quantifier": "all L > 0, all C > 0, all parameter values", "why_tests_cant": "Upper bounds on what a certificate can prove need functions that violate each stronger claim; tests only see the solver's local optimum.", "anchors": ["ciropt/classical_central_vi.py:gradient_flow_circuit", "ciropt/circuit_opt.py:CircuitOpt.solve_ipopt"]}
{"id": "C71", "title": "For the proximal point method the tool finds exactly the known decrease, and the two formulations differ", "statement": "Take the proximal point circuit with a convex, possibly nonsmooth function, capacity C and resistance R and fix beta = 1, so that the discretization is the relaxed proximal point method x - h/(CR) (x - prox(x)). Building the problem and its nonlinear program by solve_ipopt raises no error. For every h > 0 other than CR and alpha other than 0 the program has a feasible point with given parameters if and only if eta = 0 and 0 <= rho <= h - h^2/(2CR): no decrease of the function value can be certified. The decrease rho is at most CR/2 at every feasible point with beta = 1, and every smaller value is reached. The QCQP of solve_ipopt_qcqp demands eta >= 1e-7 and so has no feasible vector with beta = 1 and h other than CR, although solve_ipopt has one for every other h between 0 and 2CR.", "quantifier": "all capacities, resistances, step sizes and discretization parameters; all convex functions, spaces and steps; all feasible points of both programs", "why_tests_cant": "It gives the exact feasible set of a nonconvex program, for all problem data; a solver run gives one local optimum.", "anchors": ["ciropt/classical_central_vi.py:ppm_circuit", "ciropt/circuit_opt.py:CircuitOpt.solve_ipopt", "ciropt/circuit_opt.py:CircuitOpt.solve_ipopt_qcqp", "ciropt/function.py:proximal_step"]}
{"id": "C72", "title": "The reference solutions the experiments compare with are right, and the methods approach them", "statement": "Provided CVXPY reports the status \"optimal\" only for solutions: what cvx_geom_median, cvx_compressed_sensing and min_cvx_quad_constraint return is the minimal value of the sum of all nodes' functions (with all constraints, if asked for) and, in every row, one minimiser; contradictory constraints are never answered with a point. Provided CVXPY solves problems that have a solution, these functions raise no exception for the generated data, and the cvx_prox functions return the same points as the closed forms used in the methods. The errors that the decentralised methods record against these references tend to zero.", "quantifier": "all CVXPY behaviours with these properties, all data, numbers of nodes, step sizes within the stated ranges, connected networks", "why_tests_cant": "the reference is what every experiment is measured against, a test compares with the reference itself; the agreement must hold for every draw of the data", "anchors": ["opt_problems/decentr_geom_median.py:cvx_geom_median", "opt_problems/decentr_geom_median.py:cvx_prox_fj_geom_mean", "opt_problems/decentr_geom_median.py:cvx_prox_fj_geom_mean_sc", "opt_problems/decentr_ell2_Anorm.py:cvx_geom_median", "opt_problems/decentr_ell2_Anorm.py:cvx_prox_fj_geom_mean_sc", "opt_problems/decentr_compressed_sensing.py:cvx_compressed_sensing", "opt_problems/decentr_compressed_sensing.py:cvx_prox_fj_hj", "opt_problems/decentr_qp.py:min_cvx_quad_constraint"]}
{"id": "C73", "title": "Verification mode checks the method that was optimised, and its answer is zero or infinity", "statement": "A circuit function called with the dictionary of step sizes found by solve (params=...) returns a PEPit problem made of the same calls with these numbers, if it returns a problem without params; a missing key is a KeyError. The exception is dual_decomposition, which raises an error with every dictionary. The worst case PEPit computes for it is 0 if every run of the method on functions of the declared classes satisfies the energy inequality, and infinite otherwise. It is 0 for every feasible point of the nonlinear programs, in particular for the dictionary returned by solve with a sound solver, and where the performance problem is strictly feasible only for these. For gradient descent (beta = 1) on L-smooth functions it is 0 exactly if eta <= h and eta <= 2h - L h^2 / C. For admm_consensus and admm_euler_consensus with any number of functions, PEPit's worst case is 0 exactly if the energy inequality written on paper (sum of the inductor energies, dissipation in the resistors weighted by eta, function gap weighted by rho) holds for all functions of the class and all steps. The same holds for douglas_rachford_splitting and davis_yin_splitting with smooth functions, where in addition the worst case is 0 at a dictionary with eta, rho, h not negative exactly if the dictionary is a feasible point of the program of solve_ipopt; this also holds for admm_consensus with any number of smooth functions.", "quantifier": "all 21 circuit functions, component values, function classes, numbers of functions, dictionaries, solver behaviours, functions and runs in spaces of any dimension", "why_tests_cant": "a test verifies one dictionary with a numerical SDP solver; that the answer is never a positive finite number, and zero for everything solve can return, ranges over all functions and runs", "anchors": ["ciropt/classical_central_vi.py:gradient_flow_circuit", "ciropt/classical_central_vi.py:dual_decomposition", "ciropt/classical_central_vi.py:admm_consensus", "ciropt/classical_decentral_vi.py:pg_extra_l3", "ciropt/new_algorithms_vi.py:dadmm_C_graph6", "ciropt/function.py:subgrad_conjugate", "ciropt/utils.py:dict_parameters_ciropt", "ciropt/utils.py:dict_parameters_ciropt_gp", "ciropt/classical_central_vi.py:douglas_rachford_splitting"]}
{"id": "C74", "title": "The first program of the documentation: its exact answer, and what the algorithm it prints does", "statement": "The program of README.md (and examples/hello_world.ipynb) runs without error and its nonlinear program is built without error, for every resistance R > 0, capacity C > 0 and function class. For h other than 0 it has a feasible point with given parameters if and only if the energy inequality holds for every function and step; for convex functions and h > 0 that is 0 <= eta <= h <= 2RC/3 and rho >= 0. With R = 1 and C = 10 the largest eta is exactly 20/3, attained only with h = 20/3; the numbers recorded in the notebook are outside the exact feasible set. The algorithm printed in README.md (factors 0.33 and 0.16) makes f(x_k) converge to the minimum for every convex function with a minimiser, with summable errors, and y_k and w_k to zero; in finite dimension the points converge to a minimiser. So does the algorithm with every feasible 0 < h < 2RC/3; at the optimum h = 2RC/3 the values still converge but z_k and w_k can oscillate for ever.", "quantifier": "all R, C, function classes, discretization parameters; all convex functions with a minimiser, all runs in spaces of any dimension, all numbers of iterations", "why_tests_cant": "The exact feasible set of a nonconvex program and convergence for all convex functions are statements about infinitely many points, functions and iterations; the notebook shows one local solution and one run.", "anchors": ["README.md", "examples/hello_world.ipynb", "ciropt/function.py:def_function", "ciropt/circuit_opt.py:CircuitOpt.solve_ipopt"]}
{"id": "C75", "title": "The sizes printed before a solve are the sizes of the program", "statement": "The total number of variables that solve_ipopt prints is at most the number of scalar decision variables of the nonlinear program it gives to the solver, for every call that reaches the solver, and equal to it unless a reciprocal parameter refers to a standard name (with a parameter invh the variable h is made twice and the printed total is one too small). The number of actual variables that solve_ipopt_qcqp prints is the length of the part of the vector x that matters: vectors that agree there satisfy the same constraints with the same objective value; the remaining extra_dim variables are free, and another extra_dim gives the same program.", "quantifier": "all programs, parameter lists, bounds, initial values, values of extra_dim; all vectors", "why_tests_cant": "A run prints two numbers; that the unused entries have no effect is a statement about all vectors and all problems.", "anchors": ["ciropt/circuit_opt.py:CircuitOpt.solve_ipopt", "ciropt/circuit_opt.py:CircuitOpt.solve_ipopt_qcqp", "ciropt/sympy_to_solvers.py:ca_dict_total_variable_size"]}
{"id": "C76", "title": "What solve_sdp_relax returns is a bound, not a certificate", "statement": "solve_sdp_relax returns exactly when the relaxation can be built and the solver does not raise. The dictionary has the parameters as keys, in their order, with the values of their own entries of x; if the solver reports a status without giving values (infeasible or unbounded), the call does not raise and every value is None. If the solver returns an optimal solution and the goal is one of the parameters, no certified parameter values inside the built-in box and the given bounds exceed the returned value of the goal. The returned parameters themselves need not have a certificate: for the descent lemma with eta <= 10 every exact solver makes the call return eta = 10, although no parameters with eta > 1/4 guarantee the decrease.", "quantifier": "all programs, parameter lists, bounds, external solvers; for the last sentence all exact solvers and all parameter values", "why_tests_cant": "A run shows one dictionary; that nothing certified exceeds it, and what a non-optimal status leads to, ranges over all problems, solvers and parameter values.", "anchors": ["ciropt/extra_methods.py:solve_sdp_relax"]}
{"id": "C77", "title": "When the semidefinite programs and the matrix QCQP can be built", "statement": "For a script that runs, uses only the parameters (distinct, without underscore) and declares sensible classes: solve_fix_discr_sdp builds its program exactly if the dictionary has the parameters as keys, a metric is set, no function has a sample recorded twice and there are at least two multipliers (extra constraints plus ordered pairs of samples); solve_ipopt_qcqp_matrix needs one multiplier and no particular parameter; solve_sdp_relax needs one multiplier, no var_bound and the five parameters eta, h, rho, alpha, beta; solve_bisection_eta never fails for lack of multipliers: with fewer than two it returns the starting value divided by 2 to the number of iterations, whatever the solver does.", "quantifier": "all scripts, parameter lists, dictionaries, bounds, solvers and iteration counts", "why_tests_cant": "Each direction of the equivalences ranges over all scripts; the silent result of the search ranges over all solvers.", "anchors": ["ciropt/extra_methods.py:solve_fix_discr_sdp", "ciropt/extra_methods.py:solve_bisection_eta", "ciropt/extra_methods.py:solve_sdp_relax", "ciropt/circuit_opt.py:solve_ipopt_qcqp_matrix"]}
{"id": "C78", "title": "The best decrease that each circuit can be certified for", "statement": "For gradient_flow_circuit with 0 <= mu < L and capacity C, the largest eta over all feasible points of the program of solve_ipopt is exactly C/L; with a tunable capacity bounded by ub it is exactly ub/L; for primal_decomposition with n functions it is exactly C/(2nL). For dual_decomposition with any number of functions and 0 < mu < L it is exactly mu times the inductance divided by 2, whatever the number of functions (for mu = 0 no feasible point has a positive eta). If the function is not assumed smooth, every feasible point of gradient_flow_circuit has eta = 0 and step size h = 0, so nothing useful can be certified. The recorded results 0.99999999, 10.0, 1/6 and 0.05 of the notebooks are these values.", "quantifier": "all class parameters, capacities, inductances, numbers of functions, and all feasible points", "why_tests_cant": "A solver run reports one local optimum of a nonconvex program up to a tolerance; that no other feasible point is better ranges over a continuum.", "anchors": ["ciropt/circuit_opt.py:solve_ipopt", "ciropt/classical_central_vi.py:gradient_flow_circuit", "ciropt/classical_central_vi.py:primal_decomposition", "ciropt/classical_central_vi.py:dual_decomposition"]}
{"id": "C79", "title": "Circuits with any number of functions are certified exactly", "statement": "For primal_decomposition with any number of functions and any class of functions, and for dual_decomposition with any number of smooth functions: at parameter values with h and alpha not 0 the program of solve_ipopt has a feasible point with these values if and only if the energy inequality holds for all choices of functions of the class, in every inner product space, and all steps of the discretized algorithm (and eta, rho, h are not negative). For admm_consensus with any number of smooth functions the same equivalence holds at all parameter values. So adding functions to the circuit never makes the certificate incomplete.", "quantifier": "all numbers of functions, class parameters, capacities and parameter values with h and alpha not 0", "why_tests_cant": "The circuit is built by loops over the functions; both directions of the equivalence range over all numbers of functions, all functions and all dimensions.", "anchors": ["ciropt/classical_central_vi.py:primal_decomposition", "ciropt/classical_central_vi.py:dual_decomposition", "ciropt/classical_central_vi.py:admm_consensus", "ciropt/circuit_opt.py:solve_ipopt"]}
{"id": "C80", "title": "Lowering eta and rho by hand keeps a result valid", "statement": "The notebooks lower eta or rho in the dictionary returned by solve before they give it back to the circuit function as params for verification. For all 21 circuit functions: if the energy inequality holds for parameter values, it holds with smaller eta and rho and the same other values, provided the circuit dissipates: positive resistance, for prox_gradient_circuit and diffusion_line3 also R <= 1/L, for dual_decomposition smooth functions. So if the solver reports only feasible points, the verification of the lowered dictionary builds and PEPit's worst case is 0 (dual_decomposition excepted, whose verification cannot be built). For primal_decomposition, ppm_circuit, douglas_rachford_splitting, davis_yin_splitting, admm_consensus with any number of functions and admm_consensus_proof (the last four with smooth functions) the lowered values, if not negative, are again values of a feasible point of the program.", "quantifier": "all circuits, class parameters, numbers of functions, components, feasible points and smaller weights (also negative)", "why_tests_cant": "That the dissipated quantity is not negative must hold for all functions of the class, all dimensions and all steps; one PEPit run checks one parameter choice up to a tolerance.", "anchors": ["ciropt/classical_central_vi.py:ppm_circuit", "ciropt/classical_central_vi.py:douglas_rachford_splitting", "ciropt/classical_decentral_vi.py:decentralized_admm_graph6", "ciropt/classical_decentral_vi.py:diffusion_line3", "ciropt/new_algorithms_vi.py:dadmm_C_graph6", "ciropt/circuit_opt.py:solve", "examples/centralized/ppm.ipynb", "examples/centralized/drs.ipynb", "examples/decentralized/diffusion.ipynb"]}
{"id": "C81", "title": "The ADMM circuit is certified with the textbook step exactly when L (1 - 2 R) <= 4", "statement": "Take admm_consensus_proof with two functions of the class with 0 <= mu < L and any resistance R > 0. The nonlinear program of solve_ipopt has a feasible point, with any parameter values at all, if and only if L (1 - 2 R) <= 4; in particular always if R >= 1/2. If so, every point with h = 1 (the textbook ADMM step), 0 <= eta <= 1 and rho >= 0 is feasible. In verification mode PEPit's worst case is 0 for every dictionary with h = 1 and eta <= 1 if L (1 - 2 R) <= 4, and infinite for every dictionary if L (1 - 2 R) > 4. For mu = 0 every feasible point has eta <= 2 h - h^2, so the best certified weight is eta = 1, and h = 1 attains it.", "quantifier": "all class parameters, all positive resistances, all parameter values and dictionaries", "why_tests_cant": "Infeasibility must hold for all parameter values and feasibility for all class parameters and resistances; a run of Ipopt tries one and stops at a local point.", "anchors": ["ciropt/classical_central_vi.py:admm_consensus_proof", "ciropt/circuit_opt.py:solve_ipopt"]}
{"id": "C82", "title": "The Euler discretization of the consensus circuit is certified exactly for the step sizes and weights of a closed formula", "statement": "Take admm_euler_consensus with any number n >= 2 of functions of the class mu >= 0 without smoothness, any R > 0, Inductance > 0. In verification mode with a dictionary with h >= 0 PEPit's worst case is 0 if and only if eta <= h and rho <= h - R h^2 / (2 Inductance) + R mu (2 h - eta) / 2, and infinite otherwise; n does not matter. So for convex functions the largest step is h = 2 Inductance / R. With smooth functions these values are accepted too, and the bound on rho is still necessary. Every feasible point of the program of solve_ipopt, for any class, satisfies the bound on rho, and without smoothness the bound on eta.", "quantifier": "all numbers of functions, class parameters, resistances, inductances, dictionaries with h >= 0, all feasible points", "why_tests_cant": "One run of PEPit checks one number of functions at one parameter choice up to a tolerance; the formula is about all of them.", "anchors": ["ciropt/classical_central_vi.py:admm_euler_consensus", "ciropt/circuit_opt.py:solve_ipopt"]}
{"id": "C83", "title": "The best resistor weight of the proximal gradient circuit, and when its objective has no maximum", "statement": "Take prox_gradient_circuit with f of the class (mu, L), 0 <= mu < L, any Capacitance > 0 and 0 < R <= 2/L. The program of solve_ipopt certifies the textbook proximal gradient step, h = Capacitance * R, with rho = Capacitance * R / 2. If also R >= 1/L then this step is feasible with every eta >= 0, so maximising eta is unbounded. For mu = 0 and any R > 0 every feasible point has rho <= h - h^2 / (2 Capacitance R) <= Capacitance R / 2, so Capacitance R / 2 is the largest rho the solver can ever return. For any 0 <= mu < L and R < 1/L every feasible point has eta <= (1 - L R) (h - L h^2 / (2 Capacitance)) <= (1 - L R) Capacitance / (2 L), so the objective in eta is bounded exactly when R < 1/L, as far as R <= 2/L.", "quantifier": "all class parameters, capacities and resistances, all feasible points", "why_tests_cant": "A local solver reports one point for one choice of parameters and cannot show that no better one exists or that the objective is unbounded.", "anchors": ["ciropt/classical_central_vi.py:prox_gradient_circuit", "ciropt/circuit_opt.py:solve_ipopt"]}
{"id": "C84", "title": "Decentralised gradient descent is never certified with a positive weight eta unless the functions are strongly convex", "statement": "Take decentralized_gradient_descent_line3 in verification mode with L-smooth convex functions (mu = 0), any L > 0, R > 0, Capacitance > 0, and a dictionary whose h, eta, rho are not negative. If PEPit's worst case is 0 then eta = 0 and h (L + 3/R) <= 2 Capacitance. With rho = 0 the converse holds: the worst case is 0 exactly for eta = 0 and h (L + 3/R) <= 2 Capacitance. So lower bounds on eta such as those of the notebook can be met only with mu > 0.", "quantifier": "all smoothness constants, resistances, capacities and dictionaries with values that are not negative", "why_tests_cant": "PEPit at one choice of numbers, with a tolerance, cannot show that every positive eta fails, however small.", "anchors": ["ciropt/classical_decentral_vi.py:decentralized_gradient_descent_line3"]}
{"id": "C85", "title": "The diffusion circuit accepts the textbook step, with a known best resistor weight and a known bound on eta", "statement": "Take diffusion_line3 with functions of the class (mu, L), 0 <= mu < L, any R > 0, Capacitance > 0. In verification mode the textbook diffusion step h = Capacitance R is accepted (worst case 0) whenever R <= 2/L, rho <= Capacitance R / 2 and eta (1/L - R) <= 0; so for 1/L <= R <= 2/L any eta >= 0 is accepted. For R < 1/L every accepted dictionary, and every feasible point of the program of solve_ipopt, has eta <= (1 - L R)(h - L h^2 / (2 Capacitance)). For mu = 0 every accepted dictionary has rho <= h - h^2 / (2 Capacitance R) <= Capacitance R / 2, so at the textbook step with 1/L <= R <= 2/L and eta >= 0 the dictionary is accepted if and only if rho <= Capacitance R / 2.", "quantifier": "all class parameters, resistances, capacities and dictionaries; all feasible points", "why_tests_cant": "A run of PEPit checks one dictionary up to a tolerance, not all dictionaries of all circuits.", "anchors": ["ciropt/classical_decentral_vi.py:diffusion_line3", "ciropt/circuit_opt.py:solve_ipopt"]}
{"id": "C86", "title": "The PG-EXTRA circuit accepts the classical method, with the best weight eta and known bounds on the weights", "statement": "Take pg_extra_l3 with functions f_i of the class (mu, L_f) (L_f may be None) and h_i of the class (mu, L_h), 0 <= mu < L_h, any R > 0 and any symmetric mixing matrix W of the line with rows that sum to 1, positive W[0][1] and W[1][2], and positive W[1][1]. In verification mode the classical PG-EXTRA step h = 1/2 with gamma = 1/(4R) is accepted (worst case 0) whenever eta <= 1/2 and rho <= 1/2 - R L_h / (4 W[1][1]). For mu = 0 and any W with rows that sum to 1, every accepted dictionary, and every feasible point of the program of solve_ipopt, has eta <= 2 R gamma and rho <= R (2 - R L_h) gamma. So at the classical step with such a rho the dictionary is accepted if and only if eta <= 1/2. Every run of the classical iteration, in every real inner product space and for every number of steps, has residuals (1/2) sum <y_f - y_f*, x - x*> + (1/2 - R L_h / (4 W[1][1])) sum <y_h - y_h*, x - x*> that add up to at most the energy at the start.", "quantifier": "all class parameters, resistances, mixing matrices of the line and dictionaries; all feasible points", "why_tests_cant": "PEPit checks one mixing matrix and one dictionary up to a tolerance, not all of them.", "anchors": ["ciropt/classical_decentral_vi.py:pg_extra_l3", "ciropt/circuit_opt.py:solve_ipopt"]}
