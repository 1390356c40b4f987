# Axioms of every claimed theorem

Printed by `#print axioms` for each theorem named in `MANIFEST.json`.

| theorem | axioms |
|---|---|
| `Verif.C01_add` | propext, Classical.choice, Quot.sound |
| `Verif.C01_add_type` | propext, Quot.sound |
| `Verif.C01_div` | propext, Classical.choice, Quot.sound |
| `Verif.C01_div_zero` | propext, Classical.choice, Quot.sound |
| `Verif.C01_neg` | propext, Classical.choice, Quot.sound |
| `Verif.C01_scale` | propext, Classical.choice, Quot.sound |
| `Verif.C01_sub` | propext, Classical.choice, Quot.sound |
| `Verif.C02_inner` | propext, Classical.choice, Quot.sound |
| `Verif.C02_mul_dispatch` | propext |
| `Verif.C02_pow_reject` | propext, Quot.sound |
| `Verif.C02_sq` | propext, Classical.choice, Quot.sound |
| `Verif.C02_symm` | propext, Classical.choice, Quot.sound |
| `Verif.C03_add` | propext, Classical.choice, Quot.sound |
| `Verif.C03_addNum` | propext, Classical.choice, Quot.sound |
| `Verif.C03_add_type` | propext, Quot.sound |
| `Verif.C03_div` | propext, Classical.choice, Quot.sound |
| `Verif.C03_div_zero` | propext, Classical.choice, Quot.sound |
| `Verif.C03_mul_type` | propext, Quot.sound |
| `Verif.C03_neg` | propext, Classical.choice, Quot.sound |
| `Verif.C03_rsubNum` | propext, Classical.choice, Quot.sound |
| `Verif.C03_scale` | propext, Classical.choice, Quot.sound |
| `Verif.C03_sub` | propext, Classical.choice, Quot.sound |
| `Verif.C03_subNum` | propext, Classical.choice, Quot.sound |
| `Verif.C04_errors` | propext, Classical.choice, Quot.sound |
| `Verif.C04_registry` | propext, Classical.choice, Quot.sound |
| `Verif.C05_evaluated` | propext, Classical.choice, Quot.sound |
| `Verif.C05_reuse` | propext, Classical.choice, Quot.sound |
| `Verif.C05_violated` | propext, Classical.choice, Quot.sound |
| `Verif.C06_fresh` | propext, Classical.choice, Quot.sound |
| `Verif.C06_value` | propext, Classical.choice, Quot.sound |
| `Verif.C07_addPoint` | propext, Classical.choice, Quot.sound |
| `Verif.C07_oracle` | propext, Classical.choice, Quot.sound |
| `Verif.C07_violated` | propext, Classical.choice, Quot.sound |
| `Verif.C08_stationary` | propext, Classical.choice, Quot.sound |
| `Verif.C08_sum` | propext, Classical.choice, Quot.sound |
| `Verif.C09_conjugate` | propext, Classical.choice, Quot.sound |
| `Verif.C09_prox` | propext, Classical.choice, Quot.sound |
| `Verif.C10_classConstraints` | propext, Classical.choice, Quot.sound |
| `Verif.C10_duplicate` | propext, Classical.choice, Quot.sound |
| `Verif.C11_formula` | propext, Classical.choice, Quot.sound |
| `Verif.C11_mu_eq_L` | propext, Classical.choice, Quot.sound |
| `Verif.C11_valid` | propext, Classical.choice, Quot.sound |
| `Verif.C12_declared` | propext, Classical.choice, Quot.sound |
| `Verif.C12_members` | propext, Classical.choice, Quot.sound |
| `Verif.C13_matrix` | propext, Classical.choice, Quot.sound |
| `Verif.C13_noConst` | propext, Classical.choice, Quot.sound |
| `Verif.C14_certificate` | propext, Classical.choice, Quot.sound |
| `Verif.C14_dropped` | propext, Classical.choice, Quot.sound |
| `Verif.C15_enumerate` | propext, Classical.choice, Quot.sound |
| `Verif.C16_twice` | propext, Classical.choice, Quot.sound |
| `Verif.C17_sum` | propext, Classical.choice, Quot.sound |
| `Verif.C18_ok` | propext, Classical.choice, Quot.sound |
| `Verif.C18_rows` | propext, Classical.choice, Quot.sound |
| `Verif.C19_lookup` | propext, Classical.choice, Quot.sound |
| `Verif.C19_table` | propext, Classical.choice, Quot.sound |
| `Verif.C20_affine` | propext, Classical.choice, Quot.sound |
| `Verif.C20_linearize` | propext, Classical.choice, Quot.sound |
| `Verif.C20_roundtrip` | propext, Classical.choice, Quot.sound |
| `Verif.C20_underscore` | propext, Classical.choice, Quot.sound |
| `Verif.C21_injective` | propext, Classical.choice, Quot.sound |
| `Verif.C21_lamb` | propext, Classical.choice, Quot.sound |
| `Verif.C21_mistaken` | propext, Classical.choice, Quot.sound |
| `Verif.C21_nu` | propext, Classical.choice, Quot.sound |
| `Verif.C21_params` | propext, Classical.choice, Quot.sound |
| `Verif.C22_exact` | propext, Classical.choice, Quot.sound |
| `Verif.C22_extend` | propext, Classical.choice, Quot.sound |
| `Verif.C22_ok` | propext, Classical.choice, Quot.sound |
| `Verif.C22_plain` | propext, Classical.choice, Quot.sound |
| `Verif.C23_diag` | propext, Classical.choice, Quot.sound |
| `Verif.C23_element` | propext, Classical.choice, Quot.sound |
| `Verif.C23_matrix` | propext, Classical.choice, Quot.sound |
| `Verif.C23_pack` | propext, Classical.choice, Quot.sound |
| `Verif.C23_unpack` | propext, Classical.choice, Quot.sound |
| `Verif.C24_partition` | propext, Quot.sound |
| `Verif.C24_select` | propext, Classical.choice, Quot.sound |
| `Verif.C25_bad_length` | propext, Classical.choice, Quot.sound |
| `Verif.C25_empty` | propext, Classical.choice, Quot.sound |
| `Verif.C25_flatten_reshape` | propext, Classical.choice, Quot.sound |
| `Verif.C25_reshape_flatten` | propext, Classical.choice, Quot.sound |
| `Verif.C26_iff` | propext, Classical.choice, Quot.sound |
| `Verif.C26_sound` | propext, Classical.choice, Quot.sound |
| `Verif.C27_env` | propext, Classical.choice, Quot.sound |
| `Verif.C27_iff` | propext, Classical.choice, Quot.sound |
| `Verif.C27_sound` | propext, Classical.choice, Quot.sound |
| `Verif.C28_direct` | propext, Classical.choice, Quot.sound |
| `Verif.C28_matrix` | propext, Classical.choice, Quot.sound |
| `Verif.C29_exists` | propext, Classical.choice, Quot.sound |
| `Verif.C29_iff` | propext, Classical.choice, Quot.sound |
| `Verif.C29_qcqp` | propext, Classical.choice, Quot.sound |
| `Verif.C29_single` | propext, Classical.choice, Quot.sound |
| `Verif.C29_sound` | propext, Classical.choice, Quot.sound |
| `Verif.C30_bound` | propext, Classical.choice, Quot.sound |
| `Verif.C30_box` | propext, Classical.choice, Quot.sound |
| `Verif.C30_contains` | propext, Classical.choice, Quot.sound |
| `Verif.C30_qcqp` | propext, Classical.choice, Quot.sound |
| `Verif.C30_var_bound` | propext, Classical.choice, Quot.sound |
| `Verif.C31_certified` | propext, Classical.choice, Quot.sound |
| `Verif.C31_failure` | propext, Classical.choice, Quot.sound |
| `Verif.C31_search` | propext, Classical.choice, Quot.sound |
| `Verif.C32_classes` | propext, Classical.choice, Quot.sound |
| `Verif.C32_represent` | propext, Classical.choice, Quot.sound |
| `Verif.C33_acceleratedGradient` | propext, Classical.choice, Quot.sound |
| `Verif.C33_acceleratedGradientTuneRLC` | propext, Classical.choice, Quot.sound |
| `Verif.C33_admmConsensus` | propext, Classical.choice, Quot.sound |
| `Verif.C33_admmConsensusProof` | propext, Classical.choice, Quot.sound |
| `Verif.C33_admmEulerConsensus` | propext, Classical.choice, Quot.sound |
| `Verif.C33_dadmmCGraph6` | propext, Classical.choice, Quot.sound |
| `Verif.C33_dadmmCycle4` | propext, Classical.choice, Quot.sound |
| `Verif.C33_dadmmGraph6` | propext, Classical.choice, Quot.sound |
| `Verif.C33_dadmmLine3` | propext, Classical.choice, Quot.sound |
| `Verif.C33_dgdLine3` | propext, Classical.choice, Quot.sound |
| `Verif.C33_diffusionLine3` | propext, Classical.choice, Quot.sound |
| `Verif.C33_dualDecomposition` | propext, Classical.choice, Quot.sound |
| `Verif.C33_exampleFC3RC` | propext, Classical.choice, Quot.sound |
| `Verif.C33_gradientFlow` | propext, Classical.choice, Quot.sound |
| `Verif.C33_gradientFlowTuneC` | propext, Classical.choice, Quot.sound |
| `Verif.C33_pgExtraLine3` | propext, Classical.choice, Quot.sound |
| `Verif.C33_ppm` | propext, Classical.choice, Quot.sound |
| `Verif.C33_primalDecomposition` | propext, Classical.choice, Quot.sound |
| `Verif.C33_proxGradient` | propext, Classical.choice, Quot.sound |
| `Verif.C33_telescope` | propext, Classical.choice, Quot.sound |
| `Verif.C34_acceleratedGradient` | propext, Classical.choice, Quot.sound |
| `Verif.C34_acceleratedGradientTuneRLC` | propext, Classical.choice, Quot.sound |
| `Verif.C34_acceleratedGradientTuneRLC_feasible` | propext, Classical.choice, Quot.sound |
| `Verif.C34_acceleratedGradient_feasible` | propext, Classical.choice, Quot.sound |
| `Verif.C34_admmConsensus` | propext, Classical.choice, Quot.sound |
| `Verif.C34_admmConsensusProof` | propext, Classical.choice, Quot.sound |
| `Verif.C34_admmConsensusProof_feasible` | propext, Classical.choice, Quot.sound |
| `Verif.C34_admmConsensus_feasible` | propext, Classical.choice, Quot.sound |
| `Verif.C34_admmEulerConsensus` | propext, Classical.choice, Quot.sound |
| `Verif.C34_admmEulerConsensus_feasible` | propext, Classical.choice, Quot.sound |
| `Verif.C34_dadmmCGraph6` | propext, Classical.choice, Quot.sound |
| `Verif.C34_dadmmCycle4` | propext, Classical.choice, Quot.sound |
| `Verif.C34_dadmmCycle4_feasible` | propext, Classical.choice, Quot.sound |
| `Verif.C34_dadmmGraph6` | propext, Classical.choice, Quot.sound |
| `Verif.C34_dadmmLine3` | propext, Classical.choice, Quot.sound |
| `Verif.C34_dadmmLine3_feasible` | propext, Classical.choice, Quot.sound |
| `Verif.C34_davisYin` | propext, Classical.choice, Quot.sound |
| `Verif.C34_davisYin_feasible` | propext, Classical.choice, Quot.sound |
| `Verif.C34_dgdLine3` | propext, Classical.choice, Quot.sound |
| `Verif.C34_dgdLine3_feasible` | propext, Classical.choice, Quot.sound |
| `Verif.C34_diffusionLine3` | propext, Classical.choice, Quot.sound |
| `Verif.C34_diffusionLine3_feasible` | propext, Classical.choice, Quot.sound |
| `Verif.C34_douglasRachford` | propext, Classical.choice, Quot.sound |
| `Verif.C34_douglasRachford_feasible` | propext, Classical.choice, Quot.sound |
| `Verif.C34_dualDecomposition` | propext, Classical.choice, Quot.sound |
| `Verif.C34_dualDecomposition_feasible` | propext, Classical.choice, Quot.sound |
| `Verif.C34_exampleFC3RC` | propext, Classical.choice, Quot.sound |
| `Verif.C34_exampleFC3RC_feasible` | propext, Classical.choice, Quot.sound |
| `Verif.C34_gradientFlow` | propext, Classical.choice, Quot.sound |
| `Verif.C34_gradientFlowTuneC` | propext, Classical.choice, Quot.sound |
| `Verif.C34_gradientFlowTuneC_feasible` | propext, Classical.choice, Quot.sound |
| `Verif.C34_gradientFlow_feasible` | propext, Classical.choice, Quot.sound |
| `Verif.C34_pgExtraLine3` | propext, Classical.choice, Quot.sound |
| `Verif.C34_pgExtraLine3_feasible` | propext, Classical.choice, Quot.sound |
| `Verif.C34_ppm` | propext, Classical.choice, Quot.sound |
| `Verif.C34_ppm_feasible` | propext, Classical.choice, Quot.sound |
| `Verif.C34_primalDecomposition` | propext, Classical.choice, Quot.sound |
| `Verif.C34_primalDecomposition_feasible` | propext, Classical.choice, Quot.sound |
| `Verif.C34_proxGradient` | propext, Classical.choice, Quot.sound |
| `Verif.C34_proxGradient_feasible` | propext, Classical.choice, Quot.sound |
| `Verif.C35_admmConsensus` | propext, Classical.choice, Quot.sound |
| `Verif.C35_admmConsensus_violated` | propext, Classical.choice, Quot.sound |
| `Verif.C35_admmEulerConsensus` | propext, Classical.choice, Quot.sound |
| `Verif.C35_dualDecomposition` | propext, Classical.choice, Quot.sound |
| `Verif.C36_all` | propext, Classical.choice, Quot.sound |
| `Verif.C36_cvx` | propext, Classical.choice, Quot.sound |
| `Verif.C36_error` | propext, Quot.sound |
| `Verif.C36_known` | propext, Classical.choice, Quot.sound |
| `Verif.C36_violated` | propext, Classical.choice, Quot.sound |
| `Verif.C37_bisection` | propext, Classical.choice, Quot.sound |
| `Verif.C37_ipopt` | propext, Classical.choice, Quot.sound |
| `Verif.C37_ipopt_certifies` | propext, Classical.choice, Quot.sound |
| `Verif.C37_known` | propext, Classical.choice, Quot.sound |
| `Verif.C37_qcqp` | propext, Classical.choice, Quot.sound |
| `Verif.C37_qcqp_certifies` | propext, Classical.choice, Quot.sound |
| `Verif.C37_qcqp_matrix` | propext, Classical.choice, Quot.sound |
| `Verif.C37_report` | propext, Classical.choice, Quot.sound |
| `Verif.C37_sdp` | propext, Classical.choice, Quot.sound |
| `Verif.C37_unknown` | propext, Classical.choice, Quot.sound |
| `Verif.C37_unsuccessful` | propext, Classical.choice, Quot.sound |
| `Verif.C38_constant_raises` | propext, Classical.choice, Quot.sound |
| `Verif.C38_degree` | propext, Classical.choice, Quot.sound |
| `Verif.C38_linear` | propext, Classical.choice, Quot.sound |
| `Verif.C38_vacuous` | propext, Quot.sound |
| `Verif.C39_after_solve` | propext, Classical.choice, Quot.sound |
| `Verif.C39_constraint_violated` | propext, Classical.choice, Quot.sound |
| `Verif.C39_expression` | propext, Classical.choice, Quot.sound |
| `Verif.C39_point` | propext, Classical.choice, Quot.sound |
| `Verif.C40_ipopt_sound` | propext, Classical.choice, Quot.sound |
| `Verif.C40_isolated` | propext, Classical.choice, Quot.sound |
| `Verif.C40_mixed` | propext, Classical.choice, Quot.sound |
| `Verif.C40_qcqp_sound` | propext, Classical.choice, Quot.sound |
| `Verif.C40_raises` | propext, Classical.choice, Quot.sound |
| `Verif.C40_sdp_sound` | propext, Classical.choice, Quot.sound |
| `Verif.C40_unsound` | propext, Classical.choice, Quot.sound |
| `Verif.C41_ipopt` | propext, Classical.choice, Quot.sound |
| `Verif.C41_mangled` | propext, Classical.choice, Quot.sound |
| `Verif.C41_qcqp` | propext, Classical.choice, Quot.sound |
| `Verif.C41_recognised` | propext, Classical.choice, Quot.sound |
| `Verif.C42_currents` | propext, Classical.choice, Quot.sound |
| `Verif.C42_edges` | propext, Classical.choice, Quot.sound |
| `Verif.C43_fixedPoint` | propext, Classical.choice, Quot.sound |
| `Verif.C44_fixedPoint` | propext, Classical.choice, Quot.sound |
| `Verif.C44_sum` | propext, Classical.choice, Quot.sound |
| `Verif.C45_antisymmetric` | propext, Classical.choice, Quot.sound |
| `Verif.C45_closedForm` | propext, Classical.choice, Quot.sound |
| `Verif.C45_fixedPoint` | propext, Classical.choice, Quot.sound |
| `Verif.C46_connected` | propext, Classical.choice, Quot.sound |
| `Verif.C46_diagonal` | propext, Classical.choice, Quot.sound |
| `Verif.C46_doublyStochastic` | propext, Classical.choice, Quot.sound |
| `Verif.C46_edges` | propext, Classical.choice, Quot.sound |
| `Verif.C46_graph20_small` | propext, Classical.choice, Quot.sound |
| `Verif.C46_nonneg` | propext, Classical.choice, Quot.sound |
| `Verif.C46_nullspace` | propext, Classical.choice, Quot.sound |
| `Verif.C46_ok` | propext, Classical.choice, Quot.sound |
| `Verif.C46_rows` | propext, Classical.choice, Quot.sound |
| `Verif.C46_support` | propext, Classical.choice, Quot.sound |
| `Verif.C46_symmetric` | propext, Classical.choice, Quot.sound |
| `Verif.C47_gradQuad` | propext, Classical.choice, Quot.sound |
| `Verif.C47_halfspace` | propext, Classical.choice, Quot.sound |
| `Verif.C47_halfspace_none` | propext, Classical.choice, Quot.sound |
| `Verif.C47_norm` | propext, Classical.choice, Quot.sound |
| `Verif.C47_normSc` | propext, Classical.choice, Quot.sound |
| `Verif.C47_normSc_none` | propext, Classical.choice, Quot.sound |
| `Verif.C47_norm_none` | propext, Classical.choice, Quot.sound |
| `Verif.C47_quadNorm` | propext, Classical.choice, Quot.sound |
| `Verif.C47_quadNorm_ok` | propext, Classical.choice, Quot.sound |
| `Verif.C47_soft` | propext, Classical.choice, Quot.sound |
| `Verif.C48_first_best` | propext, Classical.choice, Quot.sound |
| `Verif.C48_mean` | propext, Classical.choice, Quot.sound |
| `Verif.C48_raise` | propext, Classical.choice, Quot.sound |
| `Verif.C48_short_list` | propext, Classical.choice, Quot.sound |
| `Verif.C48_unbound` | propext, Classical.choice, Quot.sound |
| `Verif.C49_nonsymmetric` | propext, Classical.choice, Quot.sound |
| `Verif.C49_symmetric` | propext, Classical.choice, Quot.sound |
| `Verif.C50_arrays` | propext, Classical.choice, Quot.sound |
| `Verif.C50_arrays_one` | propext, Classical.choice, Quot.sound |
| `Verif.C50_arrays_shape` | propext, Classical.choice, Quot.sound |
| `Verif.C50_arrays_squeeze` | propext, Classical.choice, Quot.sound |
| `Verif.C50_iff` | propext, Classical.choice, Quot.sound |
| `Verif.C50_not_transitive` | propext, Classical.choice, Quot.sound |
| `Verif.C50_of_close` | propext, Classical.choice, Quot.sound |
| `Verif.C50_refl` | propext, Classical.choice, Quot.sound |
| `Verif.C50_same_value` | propext, Classical.choice, Quot.sound |
| `Verif.C50_symm` | propext, Classical.choice, Quot.sound |
| `Verif.C50_tolerance` | propext, Classical.choice, Quot.sound |
| `Verif.C51_missing` | propext, Classical.choice, Quot.sound |
| `Verif.C51_names` | propext, Classical.choice, Quot.sound |
| `Verif.C51_product` | propext, Classical.choice, Quot.sound |
| `Verif.C51_raises` | propext, Classical.choice, Quot.sound |
| `Verif.C51_report` | propext, Classical.choice, Quot.sound |
| `Verif.C51_sound` | propext, Classical.choice, Quot.sound |
| `Verif.C51_trivial` | propext, Classical.choice, Quot.sound |
| `Verif.C51_variables` | propext, Classical.choice, Quot.sound |
| `Verif.C52_consensus` | propext, Classical.choice, Quot.sound |
| `Verif.C52_diverges` | propext, Classical.choice, Quot.sound |
| `Verif.C52_errOptStar` | propext, Classical.choice, Quot.sound |
| `Verif.C52_errOptStar_sum` | propext, Classical.choice, Quot.sound |
| `Verif.C52_errOptStar_unique` | propext, Classical.choice, Quot.sound |
| `Verif.C52_fReldiff` | propext, Classical.choice, Quot.sound |
| `Verif.C52_iterates` | propext, Classical.choice, Quot.sound |
| `Verif.C52_opt_of_min` | propext, Classical.choice, Quot.sound |
| `Verif.C52_sharp` | propext, Classical.choice, Quot.sound |
| `Verif.C52_values` | propext, Classical.choice, Quot.sound |
| `Verif.C53_consensus` | propext, Classical.choice, Quot.sound |
| `Verif.C53_errOptStar` | propext, Classical.choice, Quot.sound |
| `Verif.C53_errOptStar_sum` | propext, Classical.choice, Quot.sound |
| `Verif.C53_errOptStar_unique` | propext, Classical.choice, Quot.sound |
| `Verif.C53_fReldiff` | propext, Classical.choice, Quot.sound |
| `Verif.C53_iterates` | propext, Classical.choice, Quot.sound |
| `Verif.C53_metropolis` | propext, Classical.choice, Quot.sound |
| `Verif.C53_metropolis_plain` | propext, Classical.choice, Quot.sound |
| `Verif.C53_opNorm_sum` | propext, Classical.choice, Quot.sound |
| `Verif.C53_opt_of_min` | propext, Classical.choice, Quot.sound |
| `Verif.C53_values` | propext, Classical.choice, Quot.sound |
| `Verif.C54_dadmm` | propext, Classical.choice, Quot.sound |
| `Verif.C54_pgExtra` | propext, Classical.choice, Quot.sound |
| `Verif.C55_anorm_distances` | propext, Classical.choice, Quot.sound |
| `Verif.C55_anorm_ok` | propext, Classical.choice, Quot.sound |
| `Verif.C55_anorm_values` | propext, Classical.choice, Quot.sound |
| `Verif.C55_median_distances` | propext, Classical.choice, Quot.sound |
| `Verif.C55_median_exists` | propext, Classical.choice, Quot.sound |
| `Verif.C55_median_iterates` | propext, Classical.choice, Quot.sound |
| `Verif.C55_median_nan` | propext, Classical.choice, Quot.sound |
| `Verif.C55_median_unique` | propext, Classical.choice, Quot.sound |
| `Verif.C55_median_values` | propext, Classical.choice, Quot.sound |
| `Verif.C55_sensing_distances` | propext, Classical.choice, Quot.sound |
| `Verif.C55_sensing_exists` | propext, Classical.choice, Quot.sound |
| `Verif.C55_sensing_iterates` | propext, Classical.choice, Quot.sound |
| `Verif.C55_sensing_solution` | propext, Classical.choice, Quot.sound |
| `Verif.C55_sensing_values` | propext, Classical.choice, Quot.sound |
| `Verif.C56_antitone` | propext, Classical.choice, Quot.sound |
| `Verif.C56_nonneg` | propext, Classical.choice, Quot.sound |
| `Verif.C56_norm` | propext, Classical.choice, Quot.sound |
| `Verif.C56_rate` | propext, Classical.choice, Quot.sound |
| `Verif.C57_feasible` | propext, Classical.choice, Quot.sound |
| `Verif.C57_ipopt` | propext, Classical.choice, Quot.sound |
| `Verif.C57_ipopt_best` | propext, Classical.choice, Quot.sound |
| `Verif.C57_only` | propext, Classical.choice, Quot.sound |
| `Verif.C57_qcqp` | propext, Classical.choice, Quot.sound |
| `Verif.C57_reset` | propext, Classical.choice, Quot.sound |
| `Verif.C58_accepts` | propext, Classical.choice, Quot.sound |
| `Verif.C58_coefficients` | propext, Classical.choice, Quot.sound |
| `Verif.C58_const` | propext, Classical.choice, Quot.sound |
| `Verif.C58_const_stale` | propext, Classical.choice, Quot.sound |
| `Verif.C58_problem` | propext, Classical.choice, Quot.sound |
| `Verif.C58_rebuild` | propext, Classical.choice, Quot.sound |
| `Verif.C58_rows` | propext, Classical.choice, Quot.sound |
| `Verif.C59_factor` | propext, Classical.choice, Quot.sound |
| `Verif.C59_psd` | propext, Classical.choice, Quot.sound |
| `Verif.C60_anorm` | propext, Classical.choice, Quot.sound |
| `Verif.C60_dadmm` | propext, Classical.choice, Quot.sound |
| `Verif.C60_dadmm_prefix` | propext, Classical.choice, Quot.sound |
| `Verif.C60_dadmm_reldiff` | propext, Classical.choice, Quot.sound |
| `Verif.C60_dadmm_sign` | propext, Classical.choice, Quot.sound |
| `Verif.C60_median` | propext, Classical.choice, Quot.sound |
| `Verif.C60_pgExtra` | propext, Classical.choice, Quot.sound |
| `Verif.C60_pgExtra_prefix` | propext, Classical.choice, Quot.sound |
| `Verif.C60_pgExtra_reldiff` | propext, Classical.choice, Quot.sound |
| `Verif.C60_sensing` | propext, Classical.choice, Quot.sound |
| `Verif.C61_anorm` | propext, Classical.choice, Quot.sound |
| `Verif.C61_anorm_converges` | propext, Classical.choice, Quot.sound |
| `Verif.C61_median` | propext, Classical.choice, Quot.sound |
| `Verif.C61_qp` | propext, Classical.choice, Quot.sound |
| `Verif.C61_sensing_blocks` | propext, Classical.choice, Quot.sound |
| `Verif.C61_sensing_converges` | propext, Classical.choice, Quot.sound |
| `Verif.C61_sensing_measurements` | propext, Classical.choice, Quot.sound |
| `Verif.C61_sensing_signal` | propext, Classical.choice, Quot.sound |
| `Verif.C62_distance` | propext, Classical.choice, Quot.sound |
| `Verif.C62_experiment` | propext, Classical.choice, Quot.sound |
| `Verif.C62_experiment_parC` | propext, Classical.choice, Quot.sound |
| `Verif.C62_iterates` | propext, Classical.choice, Quot.sound |
| `Verif.C62_solution` | propext, Classical.choice, Quot.sound |
| `Verif.C62_values` | propext, Classical.choice, Quot.sound |
| `Verif.C63_feasible` | propext, Classical.choice, Quot.sound |
| `Verif.C63_ipopt` | propext, Classical.choice, Quot.sound |
| `Verif.C63_lonely` | propext, Classical.choice, Quot.sound |
| `Verif.C63_qcqp` | propext, Classical.choice, Quot.sound |
| `Verif.C63_solve` | propext, Classical.choice, Quot.sound |
| `Verif.C64_dgdLine3` | propext, Classical.choice, Quot.sound |
| `Verif.C64_dgdLine3_guaranteed` | propext, Classical.choice, Quot.sound |
| `Verif.C64_robust` | propext, Classical.choice, Quot.sound |
| `Verif.C65_accepts` | propext, Classical.choice, Quot.sound |
| `Verif.C65_direct` | propext, Classical.choice, Quot.sound |
| `Verif.C65_dropped` | propext, Classical.choice, Quot.sound |
| `Verif.C65_ignored` | propext, Classical.choice, Quot.sound |
| `Verif.C65_qcqp` | propext, Classical.choice, Quot.sound |
| `Verif.C65_qcqp_x` | propext, Classical.choice, Quot.sound |
| `Verif.C65_restart` | propext, Classical.choice, Quot.sound |
| `Verif.C65_restart_qcqp` | propext, Classical.choice, Quot.sound |
| `Verif.C65_same_problem` | propext, Classical.choice, Quot.sound |
| `Verif.C65_snapshot` | propext, Classical.choice, Quot.sound |
| `Verif.C65_unknown` | propext, Classical.choice, Quot.sound |
| `Verif.C66_exact` | propext, Classical.choice, Quot.sound |
| `Verif.C66_reuse_gap` | propext, Classical.choice, Quot.sound |
| `Verif.C67_circuits` | propext, Classical.choice, Quot.sound |
| `Verif.C67_iff` | propext, Classical.choice, Quot.sound |
| `Verif.C67_realize` | propext, Classical.choice, Quot.sound |
| `Verif.C68_counterexample` | propext, Classical.choice, Quot.sound |
| `Verif.C68_duality` | propext, Classical.choice, Quot.sound |
| `Verif.C68_ipopt` | propext, Classical.choice, Quot.sound |
| `Verif.C68_qcqp` | propext, Classical.choice, Quot.sound |
| `Verif.C69_acceleratedGradient` | propext, Classical.choice, Quot.sound |
| `Verif.C69_acceleratedGradientTuneRLC` | propext, Classical.choice, Quot.sound |
| `Verif.C69_admmConsensusProof` | propext, Classical.choice, Quot.sound |
| `Verif.C69_davisYin` | propext, Classical.choice, Quot.sound |
| `Verif.C69_douglasRachford` | propext, Classical.choice, Quot.sound |
| `Verif.C69_exampleFC3RC` | propext, Classical.choice, Quot.sound |
| `Verif.C69_gradientFlow` | propext, Classical.choice, Quot.sound |
| `Verif.C69_gradientFlowTuneC` | propext, Classical.choice, Quot.sound |
| `Verif.C69_ppm` | propext, Classical.choice, Quot.sound |
| `Verif.C69_proxGradient` | propext, Classical.choice, Quot.sound |
| `Verif.C70_best` | propext, Classical.choice, Quot.sound |
| `Verif.C70_gradientDescent` | propext, Classical.choice, Quot.sound |
| `Verif.C71_best` | propext, Classical.choice, Quot.sound |
| `Verif.C71_proximalPoint` | propext, Classical.choice, Quot.sound |
| `Verif.C71_qcqp` | propext, Classical.choice, Quot.sound |
| `Verif.C72_anorm_ok` | propext, Classical.choice, Quot.sound |
| `Verif.C72_anorm_run` | propext, Classical.choice, Quot.sound |
| `Verif.C72_anorm_sound` | propext, Classical.choice, Quot.sound |
| `Verif.C72_anorm_unique` | propext, Classical.choice, Quot.sound |
| `Verif.C72_median_ok` | propext, Classical.choice, Quot.sound |
| `Verif.C72_median_run` | propext, Classical.choice, Quot.sound |
| `Verif.C72_median_sound` | propext, Classical.choice, Quot.sound |
| `Verif.C72_proxNorm` | propext, Classical.choice, Quot.sound |
| `Verif.C72_proxNormSc` | propext, Classical.choice, Quot.sound |
| `Verif.C72_proxQuadNorm` | propext, Classical.choice, Quot.sound |
| `Verif.C72_proxSensing` | propext, Classical.choice, Quot.sound |
| `Verif.C72_qp_free` | propext, Classical.choice, Quot.sound |
| `Verif.C72_qp_infeasible` | propext, Classical.choice, Quot.sound |
| `Verif.C72_qp_ok` | propext, Classical.choice, Quot.sound |
| `Verif.C72_qp_run` | propext, Classical.choice, Quot.sound |
| `Verif.C72_qp_sound` | propext, Classical.choice, Quot.sound |
| `Verif.C72_sensing_ok` | propext, Classical.choice, Quot.sound |
| `Verif.C72_sensing_run` | propext, Classical.choice, Quot.sound |
| `Verif.C72_sensing_sound` | propext, Classical.choice, Quot.sound |
| `Verif.C73_admmConsensus` | propext, Classical.choice, Quot.sound |
| `Verif.C73_admmConsensusProof` | propext, Classical.choice, Quot.sound |
| `Verif.C73_admmConsensus_exact` | propext, Classical.choice, Quot.sound |
| `Verif.C73_admmEulerConsensus` | propext, Classical.choice, Quot.sound |
| `Verif.C73_builds` | propext, Classical.choice, Quot.sound |
| `Verif.C73_certified` | propext, Classical.choice, Quot.sound |
| `Verif.C73_certified_qcqp` | propext, Classical.choice, Quot.sound |
| `Verif.C73_davisYin` | propext, Classical.choice, Quot.sound |
| `Verif.C73_davisYin_exact` | propext, Classical.choice, Quot.sound |
| `Verif.C73_douglasRachford` | propext, Classical.choice, Quot.sound |
| `Verif.C73_douglasRachford_exact` | propext, Classical.choice, Quot.sound |
| `Verif.C73_dual` | propext, Classical.choice, Quot.sound |
| `Verif.C73_exact` | propext, Classical.choice, Quot.sound |
| `Verif.C73_feasible` | propext, Classical.choice, Quot.sound |
| `Verif.C73_gradientDescent` | propext, Classical.choice, Quot.sound |
| `Verif.C73_gurobi` | propext, Classical.choice, Quot.sound |
| `Verif.C73_keys` | propext, Classical.choice, Quot.sound |
| `Verif.C73_worst_case` | propext, Classical.choice, Quot.sound |
| `Verif.C74_answer` | propext, Classical.choice, Quot.sound |
| `Verif.C74_complete` | propext, Classical.choice, Quot.sound |
| `Verif.C74_converges` | propext, Classical.choice, Quot.sound |
| `Verif.C74_helloWorld` | propext, Classical.choice, Quot.sound |
| `Verif.C74_oscillates` | propext, Classical.choice, Quot.sound |
| `Verif.C74_readme` | propext, Classical.choice, Quot.sound |
| `Verif.C75_extra` | propext, Classical.choice, Quot.sound |
| `Verif.C75_le` | propext, Classical.choice, Quot.sound |
| `Verif.C75_orphan` | propext, Classical.choice, Quot.sound |
| `Verif.C75_qcqp` | propext, Classical.choice, Quot.sound |
| `Verif.C75_total` | propext, Classical.choice, Quot.sound |
| `Verif.C76_bound` | propext, Classical.choice, Quot.sound |
| `Verif.C76_none` | propext, Classical.choice, Quot.sound |
| `Verif.C76_not_certificate` | propext, Classical.choice, Quot.sound |
| `Verif.C76_report` | propext, Classical.choice, Quot.sound |
| `Verif.C77_bisection` | propext, Classical.choice, Quot.sound |
| `Verif.C77_bisection_silent` | propext, Classical.choice, Quot.sound |
| `Verif.C77_fixed` | propext, Classical.choice, Quot.sound |
| `Verif.C77_matrix` | propext, Classical.choice, Quot.sound |
| `Verif.C77_relax` | propext, Classical.choice, Quot.sound |
| `Verif.C78_dualDecomposition` | propext, Classical.choice, Quot.sound |
| `Verif.C78_dualDecomposition_le` | propext, Classical.choice, Quot.sound |
| `Verif.C78_gradientFlow` | propext, Classical.choice, Quot.sound |
| `Verif.C78_gradientFlowTuneC` | propext, Classical.choice, Quot.sound |
| `Verif.C78_nonsmooth` | propext, Classical.choice, Quot.sound |
| `Verif.C78_primalDecomposition` | propext, Classical.choice, Quot.sound |
| `Verif.C79_admmConsensus` | propext, Classical.choice, Quot.sound |
| `Verif.C79_dualDecomposition` | propext, Classical.choice, Quot.sound |
| `Verif.C79_primalDecomposition` | propext, Classical.choice, Quot.sound |
| `Verif.C80_admmConsensusProof_program` | propext, Classical.choice, Quot.sound |
| `Verif.C80_admmConsensus_program` | propext, Classical.choice, Quot.sound |
| `Verif.C80_certified` | propext, Classical.choice, Quot.sound |
| `Verif.C80_davisYin_program` | propext, Classical.choice, Quot.sound |
| `Verif.C80_douglasRachford_program` | propext, Classical.choice, Quot.sound |
| `Verif.C80_feasible` | propext, Classical.choice, Quot.sound |
| `Verif.C80_lower` | propext, Classical.choice, Quot.sound |
| `Verif.C80_ppm_program` | propext, Classical.choice, Quot.sound |
| `Verif.C80_primal_program` | propext, Classical.choice, Quot.sound |
| `Verif.C81_admmConsensusProof` | propext, Classical.choice, Quot.sound |
| `Verif.C81_admmConsensusProof_best` | propext, Classical.choice, Quot.sound |
| `Verif.C81_admmConsensusProof_verify` | propext, Classical.choice, Quot.sound |
| `Verif.C82_admmEulerConsensus` | propext, Classical.choice, Quot.sound |
| `Verif.C82_admmEulerConsensus_feasible` | propext, Classical.choice, Quot.sound |
| `Verif.C82_admmEulerConsensus_smooth` | propext, Classical.choice, Quot.sound |
| `Verif.C83_proxGradient` | propext, Classical.choice, Quot.sound |
| `Verif.C83_proxGradient_best` | propext, Classical.choice, Quot.sound |
| `Verif.C83_proxGradient_eta` | propext, Classical.choice, Quot.sound |
| `Verif.C84_dgdLine3` | propext, Classical.choice, Quot.sound |
| `Verif.C85_diffusionLine3` | propext, Classical.choice, Quot.sound |
| `Verif.C85_diffusionLine3_best` | propext, Classical.choice, Quot.sound |
| `Verif.C85_diffusionLine3_feasible` | propext, Classical.choice, Quot.sound |
| `Verif.C86_pgExtraLine3` | propext, Classical.choice, Quot.sound |
| `Verif.C86_pgExtraLine3_best` | propext, Classical.choice, Quot.sound |
| `Verif.C86_pgExtraLine3_feasible` | propext, Classical.choice, Quot.sound |
| `Verif.C86_pgExtraLine3_run` | propext, Classical.choice, Quot.sound |
| `Verif.probProg_ok` | propext, Classical.choice, Quot.sound |
