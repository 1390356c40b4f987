import Verif.Model.CircuitsDec
import Verif.Proofs.BuildCalls
import Verif.Props.Realize

/-!
# C67 applies to the circuits

The programs of the circuit builders with a fixed number of functions are standard, for all values of their arguments, and leave
`reuse_gradient` at its default.
-/

namespace Verif
open Build

/-- the program of a circuit is one to which C67 applies -/
def Build.IsStandard {α : Type} (b : Build α) : Prop := Standard b.prog = true ∧ ∀ d ∈ decls b.prog, d.Default = true

theorem defDecl_default (mu : ℚ) (L : Option ℚ) : (defDecl mu L).Default = true := by
  unfold defDecl
  split
  · rfl
  · split
    · rfl
    · split <;> rfl

/-- closes a goal `IsStandard (builder ..)` -/
local macro "standard" "[" t:Lean.Parser.Tactic.simpLemma "]" : tactic => `(tactic| (
  unfold Build.IsStandard
  calls_simp [$t]
  simp [Standard, standardFrom, Instr.Standard, Instr.declares, FE.Positive, decls, defDecl_default]))

set_option linter.unusedSimpArgs false

theorem standard_gradientFlow (mu : ℚ) (L : Option ℚ) (Cap : ℚ) : (gradientFlow mu L Cap).IsStandard := by standard [gradientFlow]

theorem standard_gradientFlowTuneC (mu : ℚ) (L : Option ℚ) : (gradientFlowTuneC mu L).IsStandard := by standard [gradientFlowTuneC]

theorem standard_acceleratedGradient (mu : ℚ) (L : Option ℚ) (R Cap Ind : ℚ) : (acceleratedGradient mu L R Cap Ind).IsStandard := by standard [acceleratedGradient]

theorem standard_acceleratedGradientTuneRLC (mu : ℚ) (L : Option ℚ) : (acceleratedGradientTuneRLC mu L).IsStandard := by standard [acceleratedGradientTuneRLC]

theorem standard_ppm (mu : ℚ) (L : Option ℚ) (Cap R : ℚ) : (ppm mu L Cap R).IsStandard := by standard [ppm]

theorem standard_proxGradient (mu : ℚ) (L : Option ℚ) (R Cap : ℚ) : (proxGradient mu L R Cap).IsStandard := by standard [proxGradient]

theorem standard_douglasRachford (mu : ℚ) (L : Option ℚ) (R Ind : ℚ) : (douglasRachford mu L R Ind).IsStandard := by standard [douglasRachford]

theorem standard_davisYin (mu : ℚ) (L : Option ℚ) (R Ind : ℚ) : (davisYin mu L R Ind).IsStandard := by standard [davisYin]

theorem standard_admmConsensusProof (mu : ℚ) (L : Option ℚ) (R : ℚ) : (admmConsensusProof mu L R).IsStandard := by standard [admmConsensusProof]

theorem standard_dgdLine3 (mu : ℚ) (L : Option ℚ) (R Cap : ℚ) : (dgdLine3 mu L R Cap).IsStandard := by standard [dgdLine3]

theorem standard_diffusionLine3 (mu : ℚ) (L : Option ℚ) (R Cap : ℚ) : (diffusionLine3 mu L R Cap).IsStandard := by standard [diffusionLine3]

theorem standard_pgExtraLine3 (mu : ℚ) (Lh Lf : Option ℚ) (R : ℚ) (W : ℕ → ℕ → ℚ) : (pgExtraLine3 mu Lh Lf R W).IsStandard := by standard [pgExtraLine3]

theorem standard_dadmmLine3 (mu : ℚ) (L : Option ℚ) (R Ind : ℚ) : (dadmmLine3 mu L R Ind).IsStandard := by standard [dadmmLine3]

theorem standard_dadmmCycle4 (mu : ℚ) (L : Option ℚ) (R Ind : ℚ) : (dadmmCycle4 mu L R Ind).IsStandard := by standard [dadmmCycle4]

theorem standard_dadmmGraph6 (mu : ℚ) (L : Option ℚ) (R Ind : ℚ) : (dadmmGraph6 mu L R Ind).IsStandard := by standard [dadmmGraph6]

theorem standard_dadmmCGraph6 (mu0 mu1 : ℚ) (L0 L1 : Option ℚ) (R Cap Ind : ℚ) : (dadmmCGraph6 mu0 mu1 L0 L1 R Cap Ind).IsStandard := by standard [dadmmCGraph6]

theorem standard_exampleFC3RC (mu : ℚ) (L : Option ℚ) (Cap R : ℚ) : (exampleFC3RC mu L Cap R).IsStandard := by standard [exampleFC3RC]

/-- **C67** applies to every circuit of `classical_central_vi.py`, `classical_decentral_vi.py` and `new_algorithms_vi.py` with a fixed number of
functions, whatever its arguments are. -/
theorem C67_circuits :
    (∀ (mu : ℚ) (L : Option ℚ) (Cap : ℚ), (gradientFlow mu L Cap).IsStandard) ∧
    (∀ (mu : ℚ) (L : Option ℚ), (gradientFlowTuneC mu L).IsStandard) ∧
    (∀ (mu : ℚ) (L : Option ℚ) (R Cap Ind : ℚ), (acceleratedGradient mu L R Cap Ind).IsStandard) ∧
    (∀ (mu : ℚ) (L : Option ℚ), (acceleratedGradientTuneRLC mu L).IsStandard) ∧
    (∀ (mu : ℚ) (L : Option ℚ) (Cap R : ℚ), (ppm mu L Cap R).IsStandard) ∧
    (∀ (mu : ℚ) (L : Option ℚ) (R Cap : ℚ), (proxGradient mu L R Cap).IsStandard) ∧
    (∀ (mu : ℚ) (L : Option ℚ) (R Ind : ℚ), (douglasRachford mu L R Ind).IsStandard) ∧
    (∀ (mu : ℚ) (L : Option ℚ) (R Ind : ℚ), (davisYin mu L R Ind).IsStandard) ∧
    (∀ (mu : ℚ) (L : Option ℚ) (R : ℚ), (admmConsensusProof mu L R).IsStandard) ∧
    (∀ (mu : ℚ) (L : Option ℚ) (R Cap : ℚ), (dgdLine3 mu L R Cap).IsStandard) ∧
    (∀ (mu : ℚ) (L : Option ℚ) (R Cap : ℚ), (diffusionLine3 mu L R Cap).IsStandard) ∧
    (∀ (mu : ℚ) (Lh Lf : Option ℚ) (R : ℚ) (W : ℕ → ℕ → ℚ), (pgExtraLine3 mu Lh Lf R W).IsStandard) ∧
    (∀ (mu : ℚ) (L : Option ℚ) (R Ind : ℚ), (dadmmLine3 mu L R Ind).IsStandard) ∧
    (∀ (mu : ℚ) (L : Option ℚ) (R Ind : ℚ), (dadmmCycle4 mu L R Ind).IsStandard) ∧
    (∀ (mu : ℚ) (L : Option ℚ) (R Ind : ℚ), (dadmmGraph6 mu L R Ind).IsStandard) ∧
    (∀ (mu0 mu1 : ℚ) (L0 L1 : Option ℚ) (R Cap Ind : ℚ), (dadmmCGraph6 mu0 mu1 L0 L1 R Cap Ind).IsStandard) ∧
    (∀ (mu : ℚ) (L : Option ℚ) (Cap R : ℚ), (exampleFC3RC mu L Cap R).IsStandard) := by
  exact ⟨standard_gradientFlow, standard_gradientFlowTuneC, standard_acceleratedGradient, standard_acceleratedGradientTuneRLC, standard_ppm, standard_proxGradient, standard_douglasRachford, standard_davisYin, standard_admmConsensusProof, standard_dgdLine3, standard_diffusionLine3, standard_pgExtraLine3, standard_dadmmLine3, standard_dadmmCycle4, standard_dadmmGraph6, standard_dadmmCGraph6, standard_exampleFC3RC⟩

end Verif
