import Verif.Proofs.VerificationTags
import Verif.Proofs.BuildCalls

/-!
# The circuits in verification mode
-/

namespace Verif
open Build
set_option linter.unusedSimpArgs false

/-- `dual_decomposition` -/
def Circuit.IsDual : Circuit → Prop
  | .dualDecomposition .. => True
  | _ => False

/-- a builder that sets the performance metric -/
def HasMetric {α : Type} (c : Build α) : Prop := ∀ n, ∃ e, .metric e ∈ (c n).2.2

theorem HasMetric.right {α β : Type} {c : Build α} {f : α → Build β} (h : ∀ a, HasMetric (f a)) : HasMetric (c >>= f) := fun n => by
  obtain ⟨e, he⟩ := h (c n).1 (c n).2.1
  exact ⟨e, List.mem_append_right _ he⟩

theorem HasMetric.left {α β : Type} {c : Build α} {f : α → Build β} (h : HasMetric c) : HasMetric (c >>= f) := fun n => by
  obtain ⟨e, he⟩ := h n
  exact ⟨e, List.mem_append_left _ he⟩

theorem HasMetric.finish (a b c : EE) : HasMetric (finishMetric a b c) := .left fun _ => ⟨_, List.mem_append_right _ (List.mem_singleton.2 rfl)⟩

theorem hasMetric_dualDecomposition {k mu L Ind} : HasMetric (dualDecomposition k mu L Ind) := by
  unfold dualDecomposition
  iterate 12 refine .right fun _ => ?_
  exact .left (.finish _ _ _)

theorem hasMetric_primalDecomposition {k mu L Ind} : HasMetric (primalDecomposition k mu L Ind) := by
  unfold primalDecomposition
  iterate 10 refine .right fun _ => ?_
  exact .finish _ _ _

theorem hasMetric_admmConsensus {k mu L R Ind} : HasMetric (admmConsensus k mu L R Ind) := by
  unfold admmConsensus
  repeat first | exact .left (.finish _ _ _) | refine .right fun _ => ?_

theorem hasMetric_admmEulerConsensus {k mu L R Ind} : HasMetric (admmEulerConsensus k mu L R Ind) := by
  unfold admmEulerConsensus
  repeat first | exact .left (.finish _ _ _) | refine .right fun _ => ?_

/-- the facts about the calls of a circuit function -/
def Circuit.Facts (c : Circuit) : Prop := (∀ i ∈ c.prog, i.Plainly {n | n ∈ c.keys} c.IsDual) ∧ ∃ e, .metric e ∈ c.prog

theorem facts_gradientFlow (mu : ℚ) (L : Option ℚ) (Cap : ℚ) : (Circuit.gradientFlow mu L Cap).Facts := by
  simp only [Circuit.Facts, Circuit.prog]
  calls_simp [Build.gradientFlow]
  simp [Instr.Plainly, Instr.Clean, Circuit.keys]

theorem facts_gradientFlowTuneC (mu : ℚ) (L : Option ℚ) : (Circuit.gradientFlowTuneC mu L).Facts := by
  simp only [Circuit.Facts, Circuit.prog]
  calls_simp [Build.gradientFlowTuneC]
  simp [Instr.Plainly, Instr.Clean, Circuit.keys]

theorem facts_acceleratedGradient (mu : ℚ) (L : Option ℚ) (R : ℚ) (Cap : ℚ) (Ind : ℚ) : (Circuit.acceleratedGradient mu L R Cap Ind).Facts := by
  simp only [Circuit.Facts, Circuit.prog]
  calls_simp [Build.acceleratedGradient]
  simp [Instr.Plainly, Instr.Clean, Circuit.keys]

theorem facts_acceleratedGradientTuneRLC (mu : ℚ) (L : Option ℚ) : (Circuit.acceleratedGradientTuneRLC mu L).Facts := by
  simp only [Circuit.Facts, Circuit.prog]
  calls_simp [Build.acceleratedGradientTuneRLC]
  simp [Instr.Plainly, Instr.Clean, Circuit.keys]

theorem facts_ppm (mu : ℚ) (L : Option ℚ) (Cap : ℚ) (R : ℚ) : (Circuit.ppm mu L Cap R).Facts := by
  simp only [Circuit.Facts, Circuit.prog]
  calls_simp [Build.ppm]
  simp [Instr.Plainly, Instr.Clean, Circuit.keys]

theorem facts_proxGradient (mu : ℚ) (L : Option ℚ) (R : ℚ) (Cap : ℚ) : (Circuit.proxGradient mu L R Cap).Facts := by
  simp only [Circuit.Facts, Circuit.prog]
  calls_simp [Build.proxGradient]
  simp [Instr.Plainly, Instr.Clean, Circuit.keys]

theorem facts_douglasRachford (mu : ℚ) (L : Option ℚ) (R : ℚ) (Ind : ℚ) : (Circuit.douglasRachford mu L R Ind).Facts := by
  simp only [Circuit.Facts, Circuit.prog]
  calls_simp [Build.douglasRachford]
  simp [Instr.Plainly, Instr.Clean, Circuit.keys]

theorem facts_davisYin (mu : ℚ) (L : Option ℚ) (R : ℚ) (Ind : ℚ) : (Circuit.davisYin mu L R Ind).Facts := by
  simp only [Circuit.Facts, Circuit.prog]
  calls_simp [Build.davisYin]
  simp [Instr.Plainly, Instr.Clean, Circuit.keys]

theorem facts_admmConsensusProof (mu : ℚ) (L : Option ℚ) (R : ℚ) : (Circuit.admmConsensusProof mu L R).Facts := by
  simp only [Circuit.Facts, Circuit.prog]
  calls_simp [Build.admmConsensusProof]
  simp [Instr.Plainly, Instr.Clean, Circuit.keys]

theorem facts_dgdLine3 (mu : ℚ) (L : Option ℚ) (R : ℚ) (Cap : ℚ) : (Circuit.dgdLine3 mu L R Cap).Facts := by
  simp only [Circuit.Facts, Circuit.prog]
  calls_simp [Build.dgdLine3]
  simp [Instr.Plainly, Instr.Clean, Circuit.keys]

theorem facts_diffusionLine3 (mu : ℚ) (L : Option ℚ) (R : ℚ) (Cap : ℚ) : (Circuit.diffusionLine3 mu L R Cap).Facts := by
  simp only [Circuit.Facts, Circuit.prog]
  calls_simp [Build.diffusionLine3]
  simp [Instr.Plainly, Instr.Clean, Circuit.keys]

theorem facts_pgExtraLine3 (mu : ℚ) (Lh : Option ℚ) (Lf : Option ℚ) (R : ℚ) (W : ℕ → ℕ → ℚ) : (Circuit.pgExtraLine3 mu Lh Lf R W).Facts := by
  simp only [Circuit.Facts, Circuit.prog]
  calls_simp [Build.pgExtraLine3]
  simp [Instr.Plainly, Instr.Clean, Circuit.keys]

theorem facts_dadmmLine3 (mu : ℚ) (L : Option ℚ) (R : ℚ) (Ind : ℚ) : (Circuit.dadmmLine3 mu L R Ind).Facts := by
  simp only [Circuit.Facts, Circuit.prog]
  calls_simp [Build.dadmmLine3]
  simp [Instr.Plainly, Instr.Clean, Circuit.keys]

theorem facts_dadmmCycle4 (mu : ℚ) (L : Option ℚ) (R : ℚ) (Ind : ℚ) : (Circuit.dadmmCycle4 mu L R Ind).Facts := by
  simp only [Circuit.Facts, Circuit.prog]
  calls_simp [Build.dadmmCycle4]
  simp [Instr.Plainly, Instr.Clean, Circuit.keys]

theorem facts_dadmmGraph6 (mu : ℚ) (L : Option ℚ) (R : ℚ) (Ind : ℚ) : (Circuit.dadmmGraph6 mu L R Ind).Facts := by
  simp only [Circuit.Facts, Circuit.prog]
  calls_simp [Build.dadmmGraph6]
  simp [Instr.Plainly, Instr.Clean, Circuit.keys]

theorem facts_dadmmCGraph6 (mu0 : ℚ) (mu1 : ℚ) (L0 : Option ℚ) (L1 : Option ℚ) (R : ℚ) (Cap : ℚ) (Ind : ℚ) : (Circuit.dadmmCGraph6 mu0 mu1 L0 L1 R Cap Ind).Facts := by
  simp only [Circuit.Facts, Circuit.prog]
  calls_simp [Build.dadmmCGraph6]
  simp [Instr.Plainly, Instr.Clean, Circuit.keys]

theorem facts_exampleFC3RC (mu : ℚ) (L : Option ℚ) (Cap : ℚ) (R : ℚ) : (Circuit.exampleFC3RC mu L Cap R).Facts := by
  simp only [Circuit.Facts, Circuit.prog]
  calls_simp [Build.exampleFC3RC]
  simp [Instr.Plainly, Instr.Clean, Circuit.keys]

theorem Circuit.facts : ∀ c : Circuit, c.Facts
  | .dualDecomposition _ _ _ _ => ⟨(uses_dualDecomposition trivial (fun _ h => h) ⟨0, 0, 0⟩).1, hasMetric_dualDecomposition ⟨0, 0, 0⟩⟩
  | .primalDecomposition _ _ _ _ => ⟨(uses_primalDecomposition (fun _ h => h) ⟨0, 0, 0⟩).1, hasMetric_primalDecomposition ⟨0, 0, 0⟩⟩
  | .admmConsensus _ _ _ _ _ => ⟨(uses_admmConsensus (fun _ h => h) ⟨0, 0, 0⟩).1, hasMetric_admmConsensus ⟨0, 0, 0⟩⟩
  | .admmEulerConsensus _ _ _ _ _ => ⟨(uses_admmEulerConsensus (fun _ h => h) ⟨0, 0, 0⟩).1, hasMetric_admmEulerConsensus ⟨0, 0, 0⟩⟩
  | .gradientFlow _ _ _ => facts_gradientFlow _ _ _
  | .gradientFlowTuneC _ _ => facts_gradientFlowTuneC _ _
  | .acceleratedGradient _ _ _ _ _ => facts_acceleratedGradient _ _ _ _ _
  | .acceleratedGradientTuneRLC _ _ => facts_acceleratedGradientTuneRLC _ _
  | .ppm _ _ _ _ => facts_ppm _ _ _ _
  | .proxGradient _ _ _ _ => facts_proxGradient _ _ _ _
  | .douglasRachford _ _ _ _ => facts_douglasRachford _ _ _ _
  | .davisYin _ _ _ _ => facts_davisYin _ _ _ _
  | .admmConsensusProof _ _ _ => facts_admmConsensusProof _ _ _
  | .dgdLine3 _ _ _ _ => facts_dgdLine3 _ _ _ _
  | .diffusionLine3 _ _ _ _ => facts_diffusionLine3 _ _ _ _
  | .pgExtraLine3 _ _ _ _ _ => facts_pgExtraLine3 _ _ _ _ _
  | .dadmmLine3 _ _ _ _ => facts_dadmmLine3 _ _ _ _
  | .dadmmCycle4 _ _ _ _ => facts_dadmmCycle4 _ _ _ _
  | .dadmmGraph6 _ _ _ _ => facts_dadmmGraph6 _ _ _ _
  | .dadmmCGraph6 _ _ _ _ _ _ _ => facts_dadmmCGraph6 _ _ _ _ _ _ _
  | .exampleFC3RC _ _ _ _ => facts_exampleFC3RC _ _ _ _

/-- a call that reads only the variables `V` uses no other name -/
theorem PE.names_of_clean {V : Set Name} : ∀ {a : PE}, a.Clean V → ∀ n ∈ a.names, n ∈ V
  | .reg _, _, _, hn => (List.not_mem_nil hn).elim
  | .add _ _, h, n, hn => (List.mem_append.1 hn).elim (PE.names_of_clean h.1 n) (PE.names_of_clean h.2 n)
  | .sub _ _, h, n, hn => (List.mem_append.1 hn).elim (PE.names_of_clean h.1 n) (PE.names_of_clean h.2 n)
  | .neg a, h, n, hn => PE.names_of_clean (a := a) h n hn
  | .scale _ _, h, n, hn => (List.mem_append.1 hn).elim (h.1 n) (PE.names_of_clean h.2 n)
  | .div a _, h, n, hn => PE.names_of_clean (a := a) h n hn

theorem EE.names_of_clean {V : Set Name} : ∀ {a : EE}, a.Clean V → ∀ n ∈ a.names, n ∈ V
  | .reg _, _, _, hn => (List.not_mem_nil hn).elim
  | .inner _ _, h, n, hn => (List.mem_append.1 hn).elim (PE.names_of_clean h.1 n) (PE.names_of_clean h.2 n)
  | .pow a _, h, n, hn => PE.names_of_clean (a := a) h n hn
  | .add _ _, h, n, hn => (List.mem_append.1 hn).elim (EE.names_of_clean h.1 n) (EE.names_of_clean h.2 n)
  | .sub _ _, h, n, hn => (List.mem_append.1 hn).elim (EE.names_of_clean h.1 n) (EE.names_of_clean h.2 n)
  | .neg a, h, n, hn => EE.names_of_clean (a := a) h n hn
  | .scale _ _, h, n, hn => (List.mem_append.1 hn).elim (h.1 n) (EE.names_of_clean h.2 n)
  | .div a _, h, n, hn => EE.names_of_clean (a := a) h n hn
  | .addNum a _, h, n, hn => EE.names_of_clean (a := a) h.1 n hn
  | .subNum a _, h, n, hn => EE.names_of_clean (a := a) h.1 n hn
  | .rsubNum _ a, h, n, hn => EE.names_of_clean (a := a) h.1 n hn

theorem Instr.names_of_clean {V : Set Name} {i : Instr} (h : i.Clean V) : ∀ n ∈ i.names, n ∈ V := by
  cases i with
  | pt a => exact PE.names_of_clean h
  | ex a => exact EE.names_of_clean h
  | prox x f g => exact h
  | objective e => exact h
  | _ => intro n hn; exact (List.not_mem_nil hn).elim

theorem PE.Clean.mono {V W : Set Name} (h : V ⊆ W) : ∀ {a : PE}, a.Clean V → a.Clean W
  | .reg _, _ => trivial
  | .add _ _, h' => ⟨PE.Clean.mono h h'.1, PE.Clean.mono h h'.2⟩
  | .sub _ _, h' => ⟨PE.Clean.mono h h'.1, PE.Clean.mono h h'.2⟩
  | .neg a, h' => PE.Clean.mono (a := a) h h'
  | .scale _ _, h' => ⟨fun n hn => h (h'.1 n hn), PE.Clean.mono h h'.2⟩
  | .div a _, h' => PE.Clean.mono (a := a) h h'

theorem EE.Clean.mono {V W : Set Name} (h : V ⊆ W) : ∀ {a : EE}, a.Clean V → a.Clean W
  | .reg _, _ => trivial
  | .inner _ _, h' => ⟨PE.Clean.mono h h'.1, PE.Clean.mono h h'.2⟩
  | .pow a _, h' => PE.Clean.mono (a := a) h h'
  | .add _ _, h' => ⟨EE.Clean.mono h h'.1, EE.Clean.mono h h'.2⟩
  | .sub _ _, h' => ⟨EE.Clean.mono h h'.1, EE.Clean.mono h h'.2⟩
  | .neg a, h' => EE.Clean.mono (a := a) h h'
  | .scale _ _, h' => ⟨fun n hn => h (h'.1 n hn), EE.Clean.mono h h'.2⟩
  | .div a _, h' => EE.Clean.mono (a := a) h h'
  | .addNum _ _, h' => ⟨EE.Clean.mono h h'.1, h'.2⟩
  | .subNum _ _, h' => ⟨EE.Clean.mono h h'.1, h'.2⟩
  | .rsubNum _ _, h' => ⟨EE.Clean.mono h h'.1, h'.2⟩

theorem Instr.Clean.mono {V W : Set Name} (h : V ⊆ W) {i : Instr} (hi : i.Clean V) : i.Clean W := by
  cases i with
  | pt a => exact PE.Clean.mono h hi
  | ex a => exact EE.Clean.mono h hi
  | prox x f g => exact fun n hn => h (hi n hn)
  | objective e => exact fun n hn => h (hi n hn)
  | _ => trivial

theorem guaranteed_congr {V : Set Name} {prog : List Instr} (hc : ∀ i ∈ prog, i.Clean V) {env env' : Name → ℝ} (he : ∀ n ∈ V, env n = env' n)
    (h : Guaranteed prog env) : Guaranteed prog env' := by
  intro E _ _ fs hf rr hx
  exact h fs hf rr (Exec.congr_env (V := V) (fun n hn => (he n hn).symm) hc hx)

theorem asNumbers_get? {d : Dict Name (List ℝ)} {n : Name} {v : ℝ} (h : d.get? n = some [v]) : (asNumbers d).get? n = some v := by
  induction d with
  | nil => cases h
  | cons kv d ih =>
    obtain ⟨k, l⟩ := kv
    rw [Dict.get?_cons] at h
    rw [asNumbers, List.map_cons, Dict.get?_cons]
    by_cases hk : k = n
    · rw [if_pos hk] at h ⊢
      cases h
      rfl
    · rw [if_neg hk] at h ⊢
      exact ih h

end Verif
