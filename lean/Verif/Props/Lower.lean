import Verif.Proofs.LowerAdmm
import Verif.Props.Verification
import Verif.Props.CompletePpm

/-!
# C80: smaller weights of the dissipation

The notebooks lower `eta` and `rho` in the dictionary `solve` returned before they give it back to the circuit function: `res["eta"] -= 0.2`
(`examples/centralized/drs.ipynb`), `res["eta"] -= 0.4` (`ppm.ipynb`), `res["rho"] = 0` (`examples/decentralized/dadmm_n6.ipynb`, `dadmm_C_n6.ipynb`,
`decentralized_admm_cycle4.ipynb`), `res["eta"] = 0.001`, `res["rho"] = 0.001` (`diffusion.ipynb`).
-/

namespace Verif
open Build

/-- The circuit dissipates energy: the resistance is positive (`acceleratedGradientTuneRLC`: the value of the parameter `R` is not negative), for the two circuits
with the weight `1 / L - R` of the dissipation `R ≤ 1 / L`, and for the decompositions the class of functions is as PEPit requires (smooth for the dual one).
No condition on capacitances, inductances and the other parameters. -/
def Circuit.Dissipates : Circuit → (Name → ℝ) → Prop
  | gradientFlow .., _ => True
  | gradientFlowTuneC .., _ => True
  | acceleratedGradient _ _ R _ _, _ => 0 < R
  | acceleratedGradientTuneRLC .., p => 0 ≤ p "R"
  | ppm _ _ _ R, _ => 0 < R
  | proxGradient _ L R _, _ => 0 < R ∧ R ≤ invSmooth L
  | dualDecomposition _ mu L _, _ => ∃ l, L = some l ∧ 0 ≤ mu ∧ mu < l
  | primalDecomposition _ mu L _, _ => (defDecl mu L).Ok
  | douglasRachford _ _ R _, _ => 0 < R
  | davisYin _ _ R _, _ => 0 < R
  | admmConsensus _ _ _ R _, _ => 0 < R
  | admmEulerConsensus _ _ _ R _, _ => 0 < R
  | admmConsensusProof _ _ R, _ => 0 < R
  | dgdLine3 _ _ R _, _ => 0 < R
  | diffusionLine3 _ L R _, _ => 0 < R ∧ R ≤ invSmooth L
  | pgExtraLine3 .., _ => True
  | dadmmLine3 _ _ R _, _ => 0 < R
  | dadmmCycle4 _ _ R _, _ => 0 < R
  | dadmmGraph6 _ _ R _, _ => 0 < R
  | dadmmCGraph6 _ _ _ _ R _ _, _ => 0 < R
  | exampleFC3RC _ _ _ R, _ => 0 < R

variable {c : Circuit} {p q : Name → ℝ}

/-- **C80.** For all 21 circuit functions: if the energy of every run decreases at least by the dissipation with the weights `eta` and `rho` of `p`, it does with
smaller weights. -/
theorem C80_lower (hc : c.Dissipates p) (hpq : ∀ n, n ≠ "eta" → n ≠ "rho" → q n = p n) (he : q "eta" ≤ p "eta") (hr : q "rho" ≤ p "rho")
    (hg : Guaranteed c.prog p) : Guaranteed c.prog q := by
  have hpq' : ∀ n, n ≠ "eta" → n ≠ "rho" → p n = q n := fun n h1 h2 => (hpq n h1 h2).symm
  revert hg
  cases c with
  | gradientFlow => exact (lower_gradientFlow _ _ _) p q hpq' he hr
  | gradientFlowTuneC => exact (lower_gradientFlowTuneC _ _) p q hpq' he hr
  | acceleratedGradient => exact (lower_acceleratedGradient _ _ _ _ _ hc) p q hpq' he hr
  | acceleratedGradientTuneRLC => exact lower_acceleratedGradientTuneRLC _ _ p q hpq' he hr hc
  | ppm => exact (lower_ppm _ _ _ _ hc) p q hpq' he hr
  | proxGradient => exact (lower_proxGradient _ _ _ _ hc.1 hc.2) p q hpq' he hr
  | dualDecomposition =>
    obtain ⟨l, rfl, h1, h2⟩ := hc
    exact (lower_dualDecomposition _ _ h1 h2) p q hpq' he hr
  | primalDecomposition => exact (lower_primalDecomposition _ _ hc) p q hpq' he hr
  | douglasRachford => exact (lower_douglasRachford _ _ _ _ hc) p q hpq' he hr
  | davisYin => exact (lower_davisYin _ _ _ _ hc) p q hpq' he hr
  | admmConsensus => exact (lower_admmConsensus _ _ _ _ _ hc) p q hpq' he hr
  | admmEulerConsensus => exact (lower_admmEulerConsensus _ _ _ _ _ hc) p q hpq' he hr
  | admmConsensusProof => exact (lower_admmConsensusProof _ _ _ hc) p q hpq' he hr
  | dgdLine3 => exact (lower_dgdLine3 _ _ _ _ hc) p q hpq' he hr
  | diffusionLine3 => exact (lower_diffusionLine3 _ _ _ _ hc.1 hc.2) p q hpq' he hr
  | pgExtraLine3 => exact (lower_pgExtraLine3 _ _ _ _ _) p q hpq' he hr
  | dadmmLine3 => exact (lower_dadmmLine3 _ _ _ _ hc) p q hpq' he hr
  | dadmmCycle4 => exact (lower_dadmmCycle4 _ _ _ _ hc) p q hpq' he hr
  | dadmmGraph6 => exact (lower_dadmmGraph6 _ _ _ _ hc) p q hpq' he hr
  | dadmmCGraph6 => exact (lower_dadmmCGraph6 _ _ _ _ _ _ _ hc) p q hpq' he hr
  | exampleFC3RC => exact (lower_exampleFC3RC _ _ _ _ hc) p q hpq' he hr

/-- `res` is the dictionary `d` with `eta` and `rho` lowered by hand -/
structure Lowered (d res : Dict Name ℝ) : Prop where
  others : ∀ n, n ≠ "eta" → n ≠ "rho" → res.get? n = d.get? n
  eta : ∀ v, d.get? "eta" = some v → ∃ w, res.get? "eta" = some w ∧ w ≤ v
  rho : ∀ v, d.get? "rho" = some v → ∃ w, res.get? "rho" = some w ∧ w ≤ v

/-- **C80.** Verification of the parameter values of a feasible point of the nonlinear program of a circuit, after `eta` and `rho` were lowered by hand:
PEPit's worst case is 0. -/
theorem C80_feasible {C : CAS} (hC : C.Lawful) (hd : ¬ c.IsDual) (hok : ∀ d ∈ decls c.prog, d.Ok) (hf : IpoptFeasible C c.prog c.params p)
    (hc : c.Dissipates p) {d res : Dict Name ℝ} (hp : ∀ n ∈ c.params, d.get? n = some (p n)) (hres : Lowered d res) :
    ∃ P, c.verify res = .ok P ∧ P.worstCase = 0 := by
  have hs := c.params_simple
  have hg : Guaranteed c.prog p := guaranteed_of_feasible hC (fun i hi => (c.clean i hi).mono c.keys_params) (fun n hn => (hs.names n (List.mem_append_left _ hn)).1)
    (fun n hn => (hs.names n (List.mem_append_left _ hn)).2.1) hok hf
  have hmem : "eta" ∈ c.params ∧ "rho" ∈ c.params := by cases c <;> simp [Circuit.params, stdParams, tuneCParams, tuneRLCParams]
  obtain ⟨e, he, hle⟩ := hres.eta _ (hp _ hmem.1)
  obtain ⟨r, hr, hlr⟩ := hres.rho _ (hp _ hmem.2)
  have hget : ∀ n ∈ c.params, res.get? n = some (if n = "eta" then e else if n = "rho" then r else p n) := by
    intro n hn
    by_cases h1 : n = "eta"
    · rw [if_pos h1, h1, he]
    · by_cases h2 : n = "rho"
      · rw [if_neg h1, if_pos h2, h2, hr]
      · rw [if_neg h1, if_neg h2, hres.others n h1 h2, hp n hn]
  have hq : Guaranteed c.prog fun n => if n = "eta" then e else if n = "rho" then r else p n := C80_lower (q := fun n => if n = "eta" then e else if n = "rho" then r else p n) hc (fun n h1 h2 => by simp [h1, h2]) (by simpa using hle)
    (by simpa using hlr) hg
  obtain ⟨rg, h, -, -, -, -, -, hrun, -⟩ := hf
  obtain ⟨P, hP, h1, h2⟩ := C73_builds (params := res) hrun hd fun n hn => by rw [hget n (c.keys_params n hn)]; simp
  refine ⟨P, hP, ?_⟩
  rcases C73_worst_case hP hok with h | h
  · exact h.1
  · refine (h.2 (guaranteed_congr c.clean (fun n hn => ?_) hq)).elim
    have := (hget n (c.keys_params n hn)).symm.trans (h2 n hn)
    simpa using this

/-- **C80.** The use in the notebooks: solve with `solver="ipopt"` by a solver that reports only feasible points as solved, lower `eta` and `rho` in the dictionary,
and give it to the circuit function again.  It returns a PEPit problem whose worst case is 0. -/
theorem C80_certified {C : CAS} (hC : C.Lawful) {X : External} {a : SolveArgs} {r : Regs} {h h' : Heap} {d : Dict Name (List ℝ)} (hd : ¬ c.IsDual)
    (hr : runProblem C c.prog Heap.empty = .ok (r, h)) (hok : ∀ d ∈ decls c.prog, d.Ok) (hb : ∀ b ∈ a.bounds, b.name ∈ scalarNames c.params)
    (hX : ∀ nlp sol, X.nlp nlp = .returned true sol → nlp.state.Sat sol)
    (hres : solve C X r c.params "ipopt" a h = .ok (.solved d, h')) (hc : ∀ p : Name → ℝ, (∀ n ∈ c.params, (asNumbers d).get? n = some (p n)) → c.Dissipates p)
    {res : Dict Name ℝ} (hl : Lowered (asNumbers d) res) : ∃ P, c.verify res = .ok P ∧ P.worstCase = 0 := by
  obtain ⟨nlp, hn, hcase⟩ := C37_ipopt hC hr (fun i hi => (c.clean i hi).mono c.keys_params) c.params_simple hok hb hres
  rcases hcase with ⟨-, hc⟩ | ⟨sol, d', h1, h2, -, h4⟩
  · cases hc
  cases h2
  have hp : ∀ n ∈ c.params, (asNumbers d).get? n = some (nlp.state.value sol n) := fun n hn => asNumbers_get? (h4 n hn)
  exact C80_feasible hC hd hok ⟨r, h, _, _, nlp, h', sol, hr, hn, hX _ _ h1, rfl⟩ (hc _ hp) hp hl

/-- **C80.** `primal_decomposition` with any number of functions: if the nonlinear program of `solve_ipopt` has a feasible point with the parameter values `p`, it has
one with the values `q` that differ only in smaller nonnegative `eta` and `rho`: the weights can also be lowered by bounds given to `solve`. -/
theorem C80_primal_program {C : CAS} (hC : C.Lawful) (k : ℕ) (mu : ℚ) (L : Option ℚ) (Cap : ℚ) (hok : (defDecl mu L).Ok) (hCap : Cap ≠ 0) :
    ∃ r h nlp h', runProblem C (primalDecomposition k mu L Cap).prog Heap.empty = .ok (r, h) ∧ solveIpopt C r stdParams [] [] h = .ok (nlp, h') ∧
      ∀ p q : Name → ℝ, p "h" ≠ 0 → p "alpha" ≠ 0 → (∀ n, n ≠ "eta" → n ≠ "rho" → q n = p n) → q "eta" ≤ p "eta" → q "rho" ≤ p "rho" → 0 ≤ q "eta" → 0 ≤ q "rho" →
        (∃ σ, nlp.state.Sat σ ∧ ∀ n ∈ scalarNames stdParams, nlp.state.value σ n = p n) → ∃ σ, nlp.state.Sat σ ∧ ∀ n ∈ scalarNames stdParams, nlp.state.value σ n = q n := by
  obtain ⟨r, h, nlp, h', h1, h2, hiff⟩ := C79_primalDecomposition hC k mu L Cap hok hCap
  refine ⟨r, h, nlp, h', h1, h2, fun p q hh ha hpq he hr he0 hr0 hσ => ?_⟩
  have e1 := hpq "h" (by decide) (by decide)
  obtain ⟨g1, g2⟩ := (hiff p hh ha).1 hσ
  rw [← guaranteed_primalDecomposition k Cap hok] at g1
  refine (hiff q (by rwa [e1]) (by rwa [hpq "alpha" (by decide) (by decide)])).2 ⟨(guaranteed_primalDecomposition k Cap hok).1 ?_, he0, hr0, by rw [e1]; exact g2.2.2⟩
  exact C80_lower (c := .primalDecomposition k mu L Cap) hok hpq he hr g1

/-- **C80.** The same for `ppm_circuit`, all class parameters, capacities and positive resistances. -/
theorem C80_ppm_program {C : CAS} (hC : C.Lawful) (mu : ℚ) (L : Option ℚ) (Cap R : ℚ) (hok : (defDecl mu L).Ok) (hCap : Cap ≠ 0) (hR : 0 < R) :
    ∃ r h nlp h', runProblem C (ppm mu L Cap R).prog Heap.empty = .ok (r, h) ∧ solveIpopt C r stdParams [] [] h = .ok (nlp, h') ∧
      ∀ p q : Name → ℝ, p "h" ≠ 0 → p "alpha" ≠ 0 → ¬ (p "h" = Cap * R ∧ p "beta" = 1) → ¬ (p "h" * (1 - p "alpha") = Cap * R ∧ p "h" * (1 - p "beta") = Cap * R) →
        (∀ n, n ≠ "eta" → n ≠ "rho" → q n = p n) → q "eta" ≤ p "eta" → q "rho" ≤ p "rho" → 0 ≤ q "eta" → 0 ≤ q "rho" →
        (∃ σ, nlp.state.Sat σ ∧ ∀ n ∈ scalarNames stdParams, nlp.state.value σ n = p n) → ∃ σ, nlp.state.Sat σ ∧ ∀ n ∈ scalarNames stdParams, nlp.state.value σ n = q n := by
  obtain ⟨r, h, nlp, h', h1, h2, hiff⟩ := C69_ppm hC mu L Cap R hok hCap hR
  refine ⟨r, h, nlp, h', h1, h2, fun p q hh ha a3 a4 hpq he hr he0 hr0 hσ => ?_⟩
  have e1 := hpq "h" (by decide) (by decide)
  have e2 := hpq "alpha" (by decide) (by decide)
  have e3 := hpq "beta" (by decide) (by decide)
  obtain ⟨g1, g2⟩ := (hiff p hh ha a3 a4).1 hσ
  rw [← guaranteed_ppm mu L Cap R hR.ne'] at g1
  refine (hiff q (by rwa [e1]) (by rwa [e2]) (by rwa [e1, e3]) (by rwa [e1, e2, e3])).2 ⟨(guaranteed_ppm mu L Cap R hR.ne').1 ?_, he0, hr0, by rw [e1]; exact g2.2.2⟩
  exact C80_lower (c := .ppm mu L Cap R) hR hpq he hr g1

/-! ### The ADMM circuits -/

/-- **C73** for `admm_consensus` with any number `n = k + 2` of functions, all class parameters, resistances and inductances: PEPit's worst case is 0 exactly if the
energy inequality holds for all functions of the class and all steps. -/
theorem C73_admmConsensus {k : ℕ} {mu : ℚ} {L : Option ℚ} {R Ind : ℚ} (hok : (defDecl mu L).Ok) {res : Dict Name ℝ} {P : PepProblem}
    (hP : (Circuit.admmConsensus k mu L R Ind).verify res = .ok P) : P.worstCase = 0 ↔ AdmmConsensusStep (k + 2) mu L R Ind P.value := by
  rw [← guaranteed_admmConsensus]
  rcases C73_worst_case hP (by
    simp only [Circuit.prog]
    rw [decls_admmConsensus]
    exact fun d hd => by rw [List.eq_of_mem_replicate hd]; exact hok) with h | h
  · exact ⟨fun _ => h.2, fun _ => h.1⟩
  · exact ⟨fun h0 => (EReal.top_ne_zero (h.1.symm.trans h0)).elim, fun hg => (h.2 hg).elim⟩

/-- **C73** for `admm_euler_consensus`. -/
theorem C73_admmEulerConsensus {k : ℕ} {mu : ℚ} {L : Option ℚ} {R Ind : ℚ} (hok : (defDecl mu L).Ok) {res : Dict Name ℝ} {P : PepProblem}
    (hP : (Circuit.admmEulerConsensus k mu L R Ind).verify res = .ok P) : P.worstCase = 0 ↔ AdmmEulerConsensusStep (k + 2) mu L R Ind P.value := by
  rw [← guaranteed_admmEulerConsensus]
  rcases C73_worst_case hP (by
    simp only [Circuit.prog]
    rw [decls_admmEulerConsensus]
    exact fun d hd => by rw [List.eq_of_mem_replicate hd]; exact hok) with h | h
  · exact ⟨fun _ => h.2, fun _ => h.1⟩
  · exact ⟨fun h0 => (EReal.top_ne_zero (h.1.symm.trans h0)).elim, fun hg => (h.2 hg).elim⟩

/-! ### The hypotheses can be met -/

/-- `C80_feasible` applies: the certified point of `ppm_circuit` with `eta` lowered from 1/1000 to 1/2000, and `rho` from 1/1000 to 0 -/
example : ∃ P, (Circuit.ppm 0 (some 1) 1 1).verify [("alpha", 1), ("beta", 1 / 2), ("delta", 0), ("eta", 1 / 2000), ("gamma", 0), ("h", 1 / 2), ("rho", 0)] = .ok P ∧
    P.worstCase = 0 := by
  obtain ⟨p, hp, h1, h2, h3, h4, h5, h6, h7⟩ := C34_ppm_feasible
  refine C80_feasible (c := .ppm 0 (some 1) 1 1) refCAS_lawful (by simp [Circuit.IsDual]) ?_ (p := p) hp (by simp [Circuit.Dissipates])
    (d := [("alpha", 1), ("beta", 1 / 2), ("delta", 0), ("eta", 1 / 1000), ("gamma", 0), ("h", 1 / 2), ("rho", 1 / 1000)])
    (by simp [Circuit.params, stdParams, Dict.get?, h1, h2, h3, h4, h5, h6, h7]) ⟨fun n h1 h2 => ?_, ?_, ?_⟩
  · simp only [Circuit.prog]; calls_simp [Build.ppm]; simp [decls, defDecl, FnDecl.Ok]
  · simp [Dict.get?, Ne.symm h1, Ne.symm h2, List.find?]
  · simp [Dict.get?]; norm_num
  · simp [Dict.get?]

/-- `C80_certified` applies: a solver that finds the best point of `gradient_flow_circuit` (C70), and verification of its dictionary with any smaller weights -/
example : ∃ (X : External) (r : Regs) (h h' : Heap) (d : Dict Name (List ℝ)), solve refCAS X r stdParams "ipopt" {} h = .ok (.solved d, h') ∧
    ∀ res, Lowered (asNumbers d) res → ∃ P, (Circuit.gradientFlow 0 (some 1) 1).verify res = .ok P ∧ P.worstCase = 0 := by
  obtain ⟨r, h, nlp, h', hr, hn, -, σ, hσ, -⟩ := C70_best refCAS_lawful (L := 1) (Cap := 1) (by norm_num) (by norm_num)
  have hX := onePoint_nlp (σ := σ) (x := fun _ => 0)
  have hx : (onePoint σ fun _ => 0).nlp nlp = .returned true _ := if_pos hσ
  obtain ⟨d, hres⟩ : ∃ d, solve refCAS (onePoint σ fun _ => 0) r stdParams "ipopt" {} h = .ok (.solved d, h') := by
    rw [solve, if_pos rfl, M.bind_of_ok hn, hx]
    exact ⟨_, rfl⟩
  refine ⟨_, r, h, h', d, hres, fun res hl => C80_certified (c := .gradientFlow 0 (some 1) 1) refCAS_lawful (by simp [Circuit.IsDual]) hr
    (by simp only [Circuit.prog]; calls_simp [Build.gradientFlow]; simp [decls, defDecl, FnDecl.Ok]) (by simp) hX hres (fun _ _ => trivial) hl⟩

/-- `C73_admmConsensus` applies: the certified point of `admm_consensus` with three functions satisfies the energy inequality -/
example : ∃ p : Name → ℝ, p "eta" = 1 / 1000 ∧ p "h" = 1 / 2 ∧ AdmmConsensusStep 3 (1 / 2) (some 1) 1 1 p := by
  obtain ⟨p, hp, h1, h2, h3, h4, h5, h6, h7⟩ := C34_admmConsensus_feasible
  have hok : (defDecl (1 / 2) (some 1)).Ok := by simp [defDecl, FnDecl.Ok]; norm_num
  obtain ⟨P, hP, h0⟩ := C73_feasible (c := .admmConsensus 1 (1 / 2) (some 1) 1 1) refCAS_lawful (by simp [Circuit.IsDual]) (by
      simp only [Circuit.prog]
      rw [decls_admmConsensus]
      exact fun d hd => by rw [List.eq_of_mem_replicate hd]; exact hok) (env := p) hp
    (params := [("alpha", 0), ("beta", 0), ("delta", 0), ("eta", 1 / 1000), ("gamma", 1 / 2), ("h", 1 / 2), ("rho", 1 / 1000)])
    (by simp [Circuit.params, stdParams, Dict.get?, h1, h2, h3, h4, h5, h6, h7])
  obtain ⟨-, hv⟩ := verification_ok hP
  simp [Circuit.keys, Dict.get?] at hv
  exact ⟨P.value, by rw [← hv.2.2.2.1]; norm_num, by rw [← hv.1]; norm_num, (C73_admmConsensus hok hP).1 h0⟩

/-- a dictionary and a lowered one -/
example : Lowered [("eta", 1), ("rho", 1), ("h", 3)] [("eta", 1 / 2), ("rho", 0), ("h", 3)] :=
  ⟨fun n h1 h2 => by simp [Dict.get?, Ne.symm h1, Ne.symm h2, List.find?], by simp [Dict.get?]; norm_num, by simp [Dict.get?]⟩

end Verif
