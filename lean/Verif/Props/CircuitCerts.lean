import Verif.Proofs.CertCheck
import Verif.Props.CircuitsCentral
import Verif.Props.CircuitsDecentral
import Verif.Props.CircuitsN

/-!
# Certificates for the circuits

The theorems of C34 speak about a feasible point of the nonlinear program of a circuit.  Here such points are given for the circuits, with
rational numbers: the discretization parameters and multipliers of the interpolation inequalities, and the factors `L`, `d` of the matrix
`L diag(d) Lᵀ` that remains.  The kernel runs the circuit and checks the equations.

So the hypotheses of the theorems can be met.  A program that samples more or less than the circuit has other coordinates, so the
certificates also notice when the model of a circuit changes in a way that leaves the theorems of C34 true.

`feasible_of_checks` needs three checks: `coordB` runs the calls up to the energies and compares all stored coordinates with `D`, `checkB`
verifies the dual system, `sideB` the side conditions.
-/

namespace Verif

open Build

/-- the standard parameters have no reserved name -/
theorem stdParams_simple : SimpleParams stdParams := by
  refine ⟨by decide, by decide +kernel, ?_⟩
  intro n hn hi
  simp only [stdParams, List.mem_cons, List.not_mem_nil, or_false] at hn
  rcases hn with rfl | rfl | rfl | rfl | rfl | rfl | rfl <;> exact absurd hi (by decide +kernel)

theorem tuneCParams_simple : SimpleParams tuneCParams := by
  refine ⟨by decide, by decide +kernel, ?_⟩
  intro n hn hi
  simp only [tuneCParams, List.mem_cons, List.not_mem_nil, or_false] at hn
  rcases hn with rfl | rfl | rfl | rfl | rfl | rfl | rfl | rfl | rfl
  case inr.inr.inr.inr.inr.inr.inr.inl => exact ⟨"C", by decide +kernel, by decide +kernel⟩
  all_goals exact absurd hi (by decide +kernel)

theorem tuneRLCParams_simple : SimpleParams tuneRLCParams := by
  refine ⟨by decide, by decide +kernel, ?_⟩
  intro n hn hi
  by_cases h1 : n = "invC"
  · exact ⟨"C", by rw [h1]; decide +kernel, by decide +kernel⟩
  by_cases h2 : n = "invL"
  · exact ⟨"L", by rw [h2]; decide +kernel, by decide +kernel⟩
  have : ∀ n ∈ tuneRLCParams, n = "invC" ∨ n = "invL" ∨ ¬ ['i', 'n', 'v'] <:+: n.toList := by decide +kernel
  rcases this n hn with h | h | h
  · exact absurd h h1
  · exact absurd h h2
  · exact absurd hi h

/-- certificate for `gradientFlow 0 (some 1) 1` at `alpha = 1`, `beta = 1/2`, `delta = 0`, `eta = 1/1000`, `gamma = 0`, `h = 1/2`, `rho = 1/1000` -/
def gradientFlowCert : Cert where
  env := [("alpha", 1), ("beta", 1/2), ("delta", 0), ("eta", 1/1000), ("gamma", 0), ("h", 1/2), ("rho", 1/1000)]
  mult := [(.tup 0 0 0 1, 1/4), (.tup 0 0 0 2, 1/4), (.tup 0 0 1 0, 499/1000), (.tup 0 0 1 2, 7/4), (.tup 0 0 1 3, 1), (.tup 0 0 2 1, 1), (.tup 0 0 2 3, 35), (.tup 0 0 3 1, 2), (.tup 0 0 3 2, 34)]
  L := [[], [], [], [0, 0, 12375/8873], [0, 0, -23000/8873, -1040180/1095707]]
  d := [0, 0, 8873/4000, 3287121/141968, 250427/1095707]

/-- samples -/
def gradientFlowS0 : List Samp := [⟨vecQ 5 1 [(0, 1)], vecQ 5 1 [], vecQ 4 1 [(0, 1)]⟩,
  ⟨vecQ 5 1 [(1, 1)], vecQ 5 1 [(2, 1)], vecQ 4 1 [(1, 1)]⟩,
  ⟨vecQ 5 2 [(1, 2), (2, -1)], vecQ 5 1 [(3, 1)], vecQ 4 1 [(2, 1)]⟩,
  ⟨vecQ 5 4 [(1, 4), (2, -1), (3, -1)], vecQ 5 1 [(4, 1)], vecQ 4 1 [(3, 1)]⟩]
/-- coordinates -/
def gradientFlowD : Coord where
  dimG := 5
  dimF := 4
  fns := [(.smoothConvex 1, gradientFlowS0)]
  eqs := []
  met := ⟨vecQ 4 1000 [(0, -1), (1, 1)], rowsQ 5 [(0, vecQ 5 8 [(2, 1), (3, 1)]), (1, vecQ 5 8 [(2, -1), (3, -1)]), (2, vecQ 5 32 [(0, 4), (1, -4), (2, 1), (3, 1)]), (3, vecQ 5 32 [(0, 4), (1, -4), (2, 1), (3, 1)])]⟩

/-- the nonlinear program of `gradientFlow` is feasible -/
theorem C34_gradientFlow_feasible : ∃ p, IpoptFeasible refCAS (gradientFlow 0 (some 1) 1).prog stdParams p ∧ p "alpha" = 1 ∧ p "beta" = 1/2 ∧ p "delta" = 0 ∧ p "eta" = 1/1000 ∧ p "gamma" = 0 ∧ p "h" = 1/2 ∧ p "rho" = 1/1000 := by
  obtain ⟨p, hp, hv⟩ := feasible_of_checks (prog := (gradientFlow 0 (some 1) 1).prog) refCAS_lawful stdParams_simple gradientFlowCert 8 (D := gradientFlowD) (by decide +kernel)
    (by decide +kernel) (by decide +kernel)
  refine ⟨p, hp, ?_, ?_, ?_, ?_, ?_, ?_, ?_⟩ <;> rw [hv _ (by decide)]
  · rw [show gradientFlowCert.val "alpha" = 1 by decide +kernel]; norm_num
  · rw [show gradientFlowCert.val "beta" = 1/2 by decide +kernel]; norm_num
  · rw [show gradientFlowCert.val "delta" = 0 by decide +kernel]; norm_num
  · rw [show gradientFlowCert.val "eta" = 1/1000 by decide +kernel]; norm_num
  · rw [show gradientFlowCert.val "gamma" = 0 by decide +kernel]; norm_num
  · rw [show gradientFlowCert.val "h" = 1/2 by decide +kernel]; norm_num
  · rw [show gradientFlowCert.val "rho" = 1/1000 by decide +kernel]; norm_num

/-- certificate for `gradientFlowTuneC 0 (some 1)` at `alpha = 1`, `beta = 1/2`, `delta = 0`, `eta = 1/1000`, `gamma = 0`, `h = 1/2`, `rho = 1/1000`, `C = 1`, `invC = 1` -/
def gradientFlowTuneCCert : Cert where
  env := [("alpha", 1), ("beta", 1/2), ("delta", 0), ("eta", 1/1000), ("gamma", 0), ("h", 1/2), ("rho", 1/1000), ("C", 1), ("invC", 1)]
  mult := [(.tup 0 0 0 1, 1/4), (.tup 0 0 0 2, 1/4), (.tup 0 0 1 0, 499/1000), (.tup 0 0 1 2, 7/4), (.tup 0 0 1 3, 1), (.tup 0 0 2 1, 1), (.tup 0 0 2 3, 35), (.tup 0 0 3 1, 2), (.tup 0 0 3 2, 34)]
  L := [[], [], [], [0, 0, 12375/8873], [0, 0, -23000/8873, -1040180/1095707]]
  d := [0, 0, 8873/4000, 3287121/141968, 250427/1095707]

/-- samples -/
def gradientFlowTuneCS0 : List Samp := [⟨vecQ 5 1 [(0, 1)], vecQ 5 1 [], vecQ 4 1 [(0, 1)]⟩,
  ⟨vecQ 5 1 [(1, 1)], vecQ 5 1 [(2, 1)], vecQ 4 1 [(1, 1)]⟩,
  ⟨vecQ 5 2 [(1, 2), (2, -1)], vecQ 5 1 [(3, 1)], vecQ 4 1 [(2, 1)]⟩,
  ⟨vecQ 5 4 [(1, 4), (2, -1), (3, -1)], vecQ 5 1 [(4, 1)], vecQ 4 1 [(3, 1)]⟩]
/-- coordinates -/
def gradientFlowTuneCD : Coord where
  dimG := 5
  dimF := 4
  fns := [(.smoothConvex 1, gradientFlowTuneCS0)]
  eqs := []
  met := ⟨vecQ 4 1000 [(0, -1), (1, 1)], rowsQ 5 [(0, vecQ 5 8 [(2, 1), (3, 1)]), (1, vecQ 5 8 [(2, -1), (3, -1)]), (2, vecQ 5 32 [(0, 4), (1, -4), (2, 1), (3, 1)]), (3, vecQ 5 32 [(0, 4), (1, -4), (2, 1), (3, 1)])]⟩

/-- the nonlinear program of `gradientFlowTuneC` is feasible -/
theorem C34_gradientFlowTuneC_feasible : ∃ p, IpoptFeasible refCAS (gradientFlowTuneC 0 (some 1)).prog tuneCParams p ∧ p "alpha" = 1 ∧ p "beta" = 1/2 ∧ p "delta" = 0 ∧ p "eta" = 1/1000 ∧ p "gamma" = 0 ∧ p "h" = 1/2 ∧ p "rho" = 1/1000 ∧ p "C" = 1 ∧ p "invC" = 1 := by
  obtain ⟨p, hp, hv⟩ := feasible_of_checks (prog := (gradientFlowTuneC 0 (some 1)).prog) refCAS_lawful tuneCParams_simple gradientFlowTuneCCert 8 (D := gradientFlowTuneCD) (by decide +kernel)
    (by decide +kernel) (by decide +kernel)
  refine ⟨p, hp, ?_, ?_, ?_, ?_, ?_, ?_, ?_, ?_, ?_⟩ <;> rw [hv _ (by decide)]
  · rw [show gradientFlowTuneCCert.val "alpha" = 1 by decide +kernel]; norm_num
  · rw [show gradientFlowTuneCCert.val "beta" = 1/2 by decide +kernel]; norm_num
  · rw [show gradientFlowTuneCCert.val "delta" = 0 by decide +kernel]; norm_num
  · rw [show gradientFlowTuneCCert.val "eta" = 1/1000 by decide +kernel]; norm_num
  · rw [show gradientFlowTuneCCert.val "gamma" = 0 by decide +kernel]; norm_num
  · rw [show gradientFlowTuneCCert.val "h" = 1/2 by decide +kernel]; norm_num
  · rw [show gradientFlowTuneCCert.val "rho" = 1/1000 by decide +kernel]; norm_num
  · rw [show gradientFlowTuneCCert.val "C" = 1 by decide +kernel]; norm_num
  · rw [show gradientFlowTuneCCert.val "invC" = 1 by decide +kernel]; norm_num

/-- certificate for `acceleratedGradient 0 (some 1) 1 1 1` at `alpha = 1`, `beta = 1/2`, `delta = 0`, `eta = 1/1000`, `gamma = 0`, `h = 1/2`, `rho = 1/1000` -/
def acceleratedGradientCert : Cert where
  env := [("alpha", 1), ("beta", 1/2), ("delta", 0), ("eta", 1/1000), ("gamma", 0), ("h", 1/2), ("rho", 1/1000)]
  mult := [(.tup 0 0 0 1, 1/4), (.tup 0 0 0 2, 1/4), (.tup 0 0 1 0, 247/3000), (.tup 0 0 1 2, 1/6), (.tup 0 0 1 3, 1/6), (.tup 0 0 2 0, 1/12), (.tup 0 0 2 1, 1/12), (.tup 0 0 2 3, 85/6), (.tup 0 0 3 0, 1/3), (.tup 0 0 3 1, 1/12), (.tup 0 0 3 2, 167/12)]
  L := [[], [], [], [0, 0, -9577/14577], [0, 0, 37000/14577, -46812625/20518894], [0, 0, -41000/14577, 9168250/10259447, -1247031784/1213970585]]
  d := [0, 0, 4859/16000, 10259447/43731000, 3641911755/328302304, 46003043/1213970585]

/-- samples -/
def acceleratedGradientS0 : List Samp := [⟨vecQ 6 1 [(0, 1)], vecQ 6 1 [], vecQ 4 1 [(0, 1)]⟩,
  ⟨vecQ 6 1 [(1, 1), (2, 1)], vecQ 6 1 [(3, 1)], vecQ 4 1 [(1, 1)]⟩,
  ⟨vecQ 6 2 [(1, 2), (2, 1)], vecQ 6 1 [(4, 1)], vecQ 4 1 [(2, 1)]⟩,
  ⟨vecQ 6 8 [(1, 8), (2, 5), (3, -1)], vecQ 6 1 [(5, 1)], vecQ 4 1 [(3, 1)]⟩]
/-- coordinates -/
def acceleratedGradientD : Coord where
  dimG := 6
  dimF := 4
  fns := [(.smoothConvex 1, acceleratedGradientS0)]
  eqs := []
  met := ⟨vecQ 4 1000 [(0, -1), (1, 1)], rowsQ 6 [(0, vecQ 6 8 [(3, 1), (4, 1)]), (1, vecQ 6 8 [(3, -1), (4, -1)]), (2, vecQ 6 16000 [(2, -4859), (3, 609), (4, 1250)]), (3, vecQ 6 16000 [(0, 2000), (1, -2000), (2, 609), (3, 641), (4, 750)]), (4, vecQ 6 64 [(0, 8), (1, -8), (2, 5), (3, 3), (4, 4)])]⟩

/-- the nonlinear program of `acceleratedGradient` is feasible -/
theorem C34_acceleratedGradient_feasible : ∃ p, IpoptFeasible refCAS (acceleratedGradient 0 (some 1) 1 1 1).prog stdParams p ∧ p "alpha" = 1 ∧ p "beta" = 1/2 ∧ p "delta" = 0 ∧ p "eta" = 1/1000 ∧ p "gamma" = 0 ∧ p "h" = 1/2 ∧ p "rho" = 1/1000 := by
  obtain ⟨p, hp, hv⟩ := feasible_of_checks (prog := (acceleratedGradient 0 (some 1) 1 1 1).prog) refCAS_lawful stdParams_simple acceleratedGradientCert 14 (D := acceleratedGradientD) (by decide +kernel)
    (by decide +kernel) (by decide +kernel)
  refine ⟨p, hp, ?_, ?_, ?_, ?_, ?_, ?_, ?_⟩ <;> rw [hv _ (by decide)]
  · rw [show acceleratedGradientCert.val "alpha" = 1 by decide +kernel]; norm_num
  · rw [show acceleratedGradientCert.val "beta" = 1/2 by decide +kernel]; norm_num
  · rw [show acceleratedGradientCert.val "delta" = 0 by decide +kernel]; norm_num
  · rw [show acceleratedGradientCert.val "eta" = 1/1000 by decide +kernel]; norm_num
  · rw [show acceleratedGradientCert.val "gamma" = 0 by decide +kernel]; norm_num
  · rw [show acceleratedGradientCert.val "h" = 1/2 by decide +kernel]; norm_num
  · rw [show acceleratedGradientCert.val "rho" = 1/1000 by decide +kernel]; norm_num

/-- certificate for `acceleratedGradientTuneRLC 0 (some 1)` at `alpha = 1`, `beta = 1/2`, `delta = 0`, `eta = 1/1000`, `gamma = 0`, `h = 1/2`, `rho = 1/1000`, `C = 1`, `invC = 1`, `L = 1`, `invL = 1`, `R = 1` -/
def acceleratedGradientTuneRLCCert : Cert where
  env := [("alpha", 1), ("beta", 1/2), ("delta", 0), ("eta", 1/1000), ("gamma", 0), ("h", 1/2), ("rho", 1/1000), ("C", 1), ("invC", 1), ("L", 1), ("invL", 1), ("R", 1)]
  mult := [(.tup 0 0 0 1, 1/4), (.tup 0 0 0 2, 1/4), (.tup 0 0 1 0, 247/3000), (.tup 0 0 1 2, 1/6), (.tup 0 0 1 3, 1/6), (.tup 0 0 2 0, 1/12), (.tup 0 0 2 1, 1/12), (.tup 0 0 2 3, 85/6), (.tup 0 0 3 0, 1/3), (.tup 0 0 3 1, 1/12), (.tup 0 0 3 2, 167/12)]
  L := [[], [], [], [0, 0, -9577/14577], [0, 0, 37000/14577, -46812625/20518894], [0, 0, -41000/14577, 9168250/10259447, -1247031784/1213970585]]
  d := [0, 0, 4859/16000, 10259447/43731000, 3641911755/328302304, 46003043/1213970585]

/-- samples -/
def acceleratedGradientTuneRLCS0 : List Samp := [⟨vecQ 6 1 [(0, 1)], vecQ 6 1 [], vecQ 4 1 [(0, 1)]⟩,
  ⟨vecQ 6 1 [(1, 1), (2, 1)], vecQ 6 1 [(3, 1)], vecQ 4 1 [(1, 1)]⟩,
  ⟨vecQ 6 2 [(1, 2), (2, 1)], vecQ 6 1 [(4, 1)], vecQ 4 1 [(2, 1)]⟩,
  ⟨vecQ 6 8 [(1, 8), (2, 5), (3, -1)], vecQ 6 1 [(5, 1)], vecQ 4 1 [(3, 1)]⟩]
/-- coordinates -/
def acceleratedGradientTuneRLCD : Coord where
  dimG := 6
  dimF := 4
  fns := [(.smoothConvex 1, acceleratedGradientTuneRLCS0)]
  eqs := []
  met := ⟨vecQ 4 1000 [(0, -1), (1, 1)], rowsQ 6 [(0, vecQ 6 8 [(3, 1), (4, 1)]), (1, vecQ 6 8 [(3, -1), (4, -1)]), (2, vecQ 6 16000 [(2, -4859), (3, 609), (4, 1250)]), (3, vecQ 6 16000 [(0, 2000), (1, -2000), (2, 609), (3, 641), (4, 750)]), (4, vecQ 6 64 [(0, 8), (1, -8), (2, 5), (3, 3), (4, 4)])]⟩

/-- the nonlinear program of `acceleratedGradientTuneRLC` is feasible -/
theorem C34_acceleratedGradientTuneRLC_feasible : ∃ p, IpoptFeasible refCAS (acceleratedGradientTuneRLC 0 (some 1)).prog tuneRLCParams p ∧ p "alpha" = 1 ∧ p "beta" = 1/2 ∧ p "delta" = 0 ∧ p "eta" = 1/1000 ∧ p "gamma" = 0 ∧ p "h" = 1/2 ∧ p "rho" = 1/1000 ∧ p "C" = 1 ∧ p "invC" = 1 ∧ p "L" = 1 ∧ p "invL" = 1 ∧ p "R" = 1 := by
  obtain ⟨p, hp, hv⟩ := feasible_of_checks (prog := (acceleratedGradientTuneRLC 0 (some 1)).prog) refCAS_lawful tuneRLCParams_simple acceleratedGradientTuneRLCCert 14 (D := acceleratedGradientTuneRLCD) (by decide +kernel)
    (by decide +kernel) (by decide +kernel)
  refine ⟨p, hp, ?_, ?_, ?_, ?_, ?_, ?_, ?_, ?_, ?_, ?_, ?_, ?_⟩ <;> rw [hv _ (by decide)]
  · rw [show acceleratedGradientTuneRLCCert.val "alpha" = 1 by decide +kernel]; norm_num
  · rw [show acceleratedGradientTuneRLCCert.val "beta" = 1/2 by decide +kernel]; norm_num
  · rw [show acceleratedGradientTuneRLCCert.val "delta" = 0 by decide +kernel]; norm_num
  · rw [show acceleratedGradientTuneRLCCert.val "eta" = 1/1000 by decide +kernel]; norm_num
  · rw [show acceleratedGradientTuneRLCCert.val "gamma" = 0 by decide +kernel]; norm_num
  · rw [show acceleratedGradientTuneRLCCert.val "h" = 1/2 by decide +kernel]; norm_num
  · rw [show acceleratedGradientTuneRLCCert.val "rho" = 1/1000 by decide +kernel]; norm_num
  · rw [show acceleratedGradientTuneRLCCert.val "C" = 1 by decide +kernel]; norm_num
  · rw [show acceleratedGradientTuneRLCCert.val "invC" = 1 by decide +kernel]; norm_num
  · rw [show acceleratedGradientTuneRLCCert.val "L" = 1 by decide +kernel]; norm_num
  · rw [show acceleratedGradientTuneRLCCert.val "invL" = 1 by decide +kernel]; norm_num
  · rw [show acceleratedGradientTuneRLCCert.val "R" = 1 by decide +kernel]; norm_num

/-- certificate for `ppm 0 (some 1) 1 1` at `alpha = 1`, `beta = 1/2`, `delta = 0`, `eta = 1/1000`, `gamma = 0`, `h = 1/2`, `rho = 1/1000` -/
def ppmCert : Cert where
  env := [("alpha", 1), ("beta", 1/2), ("delta", 0), ("eta", 1/1000), ("gamma", 0), ("h", 1/2), ("rho", 1/1000)]
  mult := [(.tup 0 0 0 1, 1/4), (.tup 0 0 0 2, 1/4), (.tup 0 0 1 0, 499/1000), (.tup 0 0 1 2, 19/4), (.tup 0 0 1 3, 2001/1000), (.tup 0 0 2 1, 5), (.tup 0 0 2 3, 1), (.tup 0 0 3 1, 2), (.tup 0 0 3 2, 1)]
  L := [[], [], [], [0, 0, -34625/45871], [0, 0, -23007/91742, -151176313/237828125]]
  d := [0, 0, 45871/4000, 1902625/366968, 701598642501/3805250000000]

/-- samples -/
def ppmS0 : List Samp := [⟨vecQ 5 1 [(0, 1)], vecQ 5 1 [], vecQ 4 1 [(0, 1)]⟩,
  ⟨vecQ 5 1 [(1, 1), (2, -1)], vecQ 5 1 [(2, 1)], vecQ 4 1 [(1, 1)]⟩,
  ⟨vecQ 5 2 [(1, 2), (2, -1), (3, -2)], vecQ 5 1 [(3, 1)], vecQ 4 1 [(2, 1)]⟩,
  ⟨vecQ 5 4 [(1, 4), (2, -1), (3, -1)], vecQ 5 1 [(4, 1)], vecQ 4 1 [(3, 1)]⟩]
/-- coordinates -/
def ppmD : Coord where
  dimG := 5
  dimF := 4
  fns := [(.smoothConvex 1, ppmS0)]
  eqs := []
  met := ⟨vecQ 4 1000 [(0, -1), (3, 1)], rowsQ 5 [(0, vecQ 5 8 [(2, 1), (3, 1)]), (1, vecQ 5 8 [(2, -1), (3, -1)]), (2, vecQ 5 4000 [(0, 500), (1, -500), (2, 129), (3, 125)]), (3, vecQ 5 32 [(0, 4), (1, -4), (2, 1), (3, 1)])]⟩

/-- the nonlinear program of `ppm` is feasible -/
theorem C34_ppm_feasible : ∃ p, IpoptFeasible refCAS (ppm 0 (some 1) 1 1).prog stdParams p ∧ p "alpha" = 1 ∧ p "beta" = 1/2 ∧ p "delta" = 0 ∧ p "eta" = 1/1000 ∧ p "gamma" = 0 ∧ p "h" = 1/2 ∧ p "rho" = 1/1000 := by
  obtain ⟨p, hp, hv⟩ := feasible_of_checks (prog := (ppm 0 (some 1) 1 1).prog) refCAS_lawful stdParams_simple ppmCert 9 (D := ppmD) (by decide +kernel)
    (by decide +kernel) (by decide +kernel)
  refine ⟨p, hp, ?_, ?_, ?_, ?_, ?_, ?_, ?_⟩ <;> rw [hv _ (by decide)]
  · rw [show ppmCert.val "alpha" = 1 by decide +kernel]; norm_num
  · rw [show ppmCert.val "beta" = 1/2 by decide +kernel]; norm_num
  · rw [show ppmCert.val "delta" = 0 by decide +kernel]; norm_num
  · rw [show ppmCert.val "eta" = 1/1000 by decide +kernel]; norm_num
  · rw [show ppmCert.val "gamma" = 0 by decide +kernel]; norm_num
  · rw [show ppmCert.val "h" = 1/2 by decide +kernel]; norm_num
  · rw [show ppmCert.val "rho" = 1/1000 by decide +kernel]; norm_num

/-- certificate for `proxGradient 0 (some 1) (1/2) 1` at `alpha = 1`, `beta = 1/2`, `delta = 0`, `eta = 1/1000`, `gamma = 0`, `h = 1/2`, `rho = 1/1000` -/
def proxGradientCert : Cert where
  env := [("alpha", 1), ("beta", 1/2), ("delta", 0), ("eta", 1/1000), ("gamma", 0), ("h", 1/2), ("rho", 1/1000)]
  mult := [(.tup 0 0 0 2, 1/2), (.tup 0 0 1 0, 1/6), (.tup 0 0 1 2, 1/6), (.tup 0 0 2 0, 1/3), (.tup 0 0 2 1, 1/3), (.tup 0 1 0 1, 1/2), (.tup 0 1 1 0, 1/6), (.tup 0 1 1 2, 2/3), (.tup 0 1 2 0, 1/3), (.tup 0 1 2 1, 1/3)]
  L := [[], [], [], [0, -247/2994, 0], [0, 997/2994, 0, -1250741/2924009], [0, -625/1497, 0, -4051250/2924009, -4825169/2763867], [0, 250/1497, 0, 123500/2924009, -7589036/2763867, 1]]
  d := [0, 499/1000, 0, 2924009/17964000, 921289/23392072, 183974/8291601, 0]

/-- samples -/
def proxGradientS0 : List Samp := [⟨vecQ 7 1 [(0, 1)], vecQ 7 1 [(1, 1)], vecQ 6 1 [(1, 1)]⟩,
  ⟨vecQ 7 1 [(2, 1)], vecQ 7 1 [(3, 1)], vecQ 6 1 [(2, 1)]⟩,
  ⟨vecQ 7 2 [(2, 2), (3, -1), (4, -1)], vecQ 7 1 [(5, 1)], vecQ 6 1 [(4, 1)]⟩]
/-- samples -/
def proxGradientS1 : List Samp := [⟨vecQ 7 1 [(0, 1)], vecQ 7 1 [(1, -1)], vecQ 6 1 [(0, 1), (1, -1)]⟩,
  ⟨vecQ 7 2 [(2, 2), (3, -1), (4, -1)], vecQ 7 1 [(4, 1)], vecQ 6 1 [(3, 1)]⟩,
  ⟨vecQ 7 2 [(2, 2), (3, -1), (4, -1), (5, -1), (6, -1)], vecQ 7 1 [(6, 1)], vecQ 6 1 [(5, 1)]⟩]
/-- coordinates -/
def proxGradientD : Coord where
  dimG := 7
  dimF := 6
  fns := [(.smoothConvex 1, proxGradientS0), (.convex, proxGradientS1)]
  eqs := []
  met := ⟨vecQ 6 1 [], rowsQ 7 [(0, vecQ 7 4 [(4, 1), (5, 1)]), (1, vecQ 7 2000 [(1, 2), (3, -1), (4, -249), (5, -250)]), (2, vecQ 7 4 [(4, -1), (5, -1)]), (3, vecQ 7 2000 [(1, -1), (3, 1), (4, 250), (5, 250)]), (4, vecQ 7 2000 [(0, 500), (1, -249), (2, -500), (3, 250), (4, 251), (5, 250)]), (5, vecQ 7 8 [(0, 2), (1, -1), (2, -2), (3, 1), (4, 1), (5, 1)])]⟩

/-- the nonlinear program of `proxGradient` is feasible -/
theorem C34_proxGradient_feasible : ∃ p, IpoptFeasible refCAS (proxGradient 0 (some 1) (1/2) 1).prog stdParams p ∧ p "alpha" = 1 ∧ p "beta" = 1/2 ∧ p "delta" = 0 ∧ p "eta" = 1/1000 ∧ p "gamma" = 0 ∧ p "h" = 1/2 ∧ p "rho" = 1/1000 := by
  obtain ⟨p, hp, hv⟩ := feasible_of_checks (prog := (proxGradient 0 (some 1) (1/2) 1).prog) refCAS_lawful stdParams_simple proxGradientCert 16 (D := proxGradientD) (by decide +kernel)
    (by decide +kernel) (by decide +kernel)
  refine ⟨p, hp, ?_, ?_, ?_, ?_, ?_, ?_, ?_⟩ <;> rw [hv _ (by decide)]
  · rw [show proxGradientCert.val "alpha" = 1 by decide +kernel]; norm_num
  · rw [show proxGradientCert.val "beta" = 1/2 by decide +kernel]; norm_num
  · rw [show proxGradientCert.val "delta" = 0 by decide +kernel]; norm_num
  · rw [show proxGradientCert.val "eta" = 1/1000 by decide +kernel]; norm_num
  · rw [show proxGradientCert.val "gamma" = 0 by decide +kernel]; norm_num
  · rw [show proxGradientCert.val "h" = 1/2 by decide +kernel]; norm_num
  · rw [show proxGradientCert.val "rho" = 1/1000 by decide +kernel]; norm_num

/-- certificate for `douglasRachford (1/2) (some 1) 1 1` at `alpha = 0`, `beta = 0`, `delta = 0`, `eta = 1/1000`, `gamma = 1/2`, `h = 1/2`, `rho = 1/1000` -/
def douglasRachfordCert : Cert where
  env := [("alpha", 0), ("beta", 0), ("delta", 0), ("eta", 1/1000), ("gamma", 1/2), ("h", 1/2), ("rho", 1/1000)]
  mult := [(.tup 0 0 0 1, 1/1000), (.tup 0 0 0 2, 7/12), (.tup 0 0 0 3, 11/6), (.tup 0 0 1 2, 1/12), (.tup 0 0 2 0, 5/12), (.tup 0 0 2 1, 1/12), (.tup 0 0 2 3, 11/4), (.tup 0 0 3 0, 2), (.tup 0 0 3 2, 31/12), (.tup 0 1 0 1, 1753/3000), (.tup 0 1 0 2, 19/3), (.tup 0 1 0 3, 47/12), (.tup 0 1 1 0, 1/2), (.tup 0 1 1 2, 3/4), (.tup 0 1 1 3, 5/12), (.tup 0 1 2 0, 35/6), (.tup 0 1 2 1, 3/4), (.tup 0 1 2 3, 89/12), (.tup 0 1 3 0, 9/2), (.tup 0 1 3 1, 1/3), (.tup 0 1 3 2, 83/12)]
  L := [[], [12625/13251], [-7253/79506, 112907503/575362131], [-1, 0, 0], [13252/13251, -25876/191787377, -143899381238/118213794863, 0], [91759/79506, -101284994/575362131, 20963369875/20861257917, 0, -33690820867723/24085953483027], [13000/13251, -20572500/191787377, -64909030000/354641384589, 0, -323753262151375/96343813932108, -4236600473578841/5597457214360180], [62875/39753, 178495250/575362131, 931957247000/354641384589, 0, 173775260150375/96343813932108, -1601543495357119/1119491442872036, -125978462992891065/200043202889805346], [3625/5679, -331954000/575362131, 14328925750/20861257917, 0, 10953589264250/24085953483027, -1592065708581377/5597457214360180, -1370550493202484277/800172811559221384, -264557582114234661239/383430098706735637836], [9875/13251, 72436750/191787377, -395569528750/118213794863, 0, -37101177973625/16057302322018, -3418405919734803/5597457214360180, -66463829671698633/800172811559221384, -647987680820970299075/383430098706735637836, 1]]
  d := [13251/1000, 191787377/13251000, 118213794863/2301448524000, 0, 8028651161009/88660346147250, 1399364303590045/433547162694486, 100021601444902673/16792371643080540, 31952508225561303153/1600345623118442768, 718608146995592606243/575145148060103456754, 0]

/-- samples -/
def douglasRachfordS0 : List Samp := [⟨vecQ 10 1 [(0, 1)], vecQ 10 1 [(1, 1)], vecQ 8 1 [(1, 1)]⟩,
  ⟨vecQ 10 1 [(2, 1), (3, 1), (4, -1)], vecQ 10 1 [(4, 1)], vecQ 8 1 [(2, 1)]⟩,
  ⟨vecQ 10 2 [(2, 1), (3, 2), (4, -2), (5, -3), (6, -2)], vecQ 10 1 [(6, 1)], vecQ 8 1 [(4, 1)]⟩,
  ⟨vecQ 10 2 [(2, 1), (3, 2), (4, -2), (5, -3), (6, -2), (7, -2), (8, -2)], vecQ 10 1 [(8, 1)], vecQ 8 1 [(6, 1)]⟩]
/-- samples -/
def douglasRachfordS1 : List Samp := [⟨vecQ 10 1 [(0, 1)], vecQ 10 1 [(1, -1)], vecQ 8 1 [(0, 1), (1, -1)]⟩,
  ⟨vecQ 10 1 [(3, 1), (4, -1), (5, -1)], vecQ 10 1 [(5, 1)], vecQ 8 1 [(3, 1)]⟩,
  ⟨vecQ 10 1 [(3, 1), (4, -1), (5, -1), (6, -1), (7, -1)], vecQ 10 1 [(7, 1)], vecQ 8 1 [(5, 1)]⟩,
  ⟨vecQ 10 1 [(3, 1), (4, -1), (5, -1), (6, -1), (7, -1), (8, -1), (9, -1)], vecQ 10 1 [(9, 1)], vecQ 8 1 [(7, 1)]⟩]
/-- equality -/
def douglasRachfordE0 : QuadQ := ⟨vecQ 8 1 [], rowsQ 10 []⟩
/-- coordinates -/
def douglasRachfordD : Coord where
  dimG := 10
  dimF := 8
  fns := [(.smoothStrongly (1/2) 1, douglasRachfordS0), (.smoothStrongly (1/2) 1, douglasRachfordS1)]
  eqs := [douglasRachfordE0]
  met := ⟨vecQ 8 1000 [(0, -1), (2, 1), (3, 1)], rowsQ 10 [(0, vecQ 10 2 [(6, 1), (7, 1), (8, 1), (9, 1)]), (1, vecQ 10 500 [(2, 62), (5, -63), (7, 125)]), (2, vecQ 10 2000 [(1, 250), (2, -187), (4, -1), (5, 187), (7, -125)]), (3, vecQ 10 2 [(6, -1), (7, -1), (8, -1), (9, -1)]), (4, vecQ 10 2000 [(2, -1), (4, 2), (5, 1), (6, 1000), (7, 1000), (8, 1000), (9, 1000)]), (5, vecQ 10 2000 [(1, -250), (2, 187), (4, 1), (5, -187), (6, 1000), (7, 1125), (8, 1000), (9, 1000)]), (6, vecQ 10 2 [(0, 1), (3, -1), (4, 1), (5, 1), (6, 1), (7, 1), (8, 1), (9, 1)]), (7, vecQ 10 16 [(0, 8), (1, 4), (2, -1), (3, -8), (4, 8), (5, 9), (6, 8), (7, 10), (8, 8), (9, 8)]), (8, vecQ 10 2 [(0, 1), (3, -1), (4, 1), (5, 1), (6, 1), (7, 1), (8, 1), (9, 1)]), (9, vecQ 10 2 [(0, 1), (3, -1), (4, 1), (5, 1), (6, 1), (7, 1), (8, 1), (9, 1)])]⟩

/-- the nonlinear program of `douglasRachford` is feasible -/
theorem C34_douglasRachford_feasible : ∃ p, IpoptFeasible refCAS (douglasRachford (1/2) (some 1) 1 1).prog stdParams p ∧ p "alpha" = 0 ∧ p "beta" = 0 ∧ p "delta" = 0 ∧ p "eta" = 1/1000 ∧ p "gamma" = 1/2 ∧ p "h" = 1/2 ∧ p "rho" = 1/1000 := by
  obtain ⟨p, hp, hv⟩ := feasible_of_checks (prog := (douglasRachford (1/2) (some 1) 1 1).prog) refCAS_lawful stdParams_simple douglasRachfordCert 25 (D := douglasRachfordD) (by decide +kernel)
    (by decide +kernel) (by decide +kernel)
  refine ⟨p, hp, ?_, ?_, ?_, ?_, ?_, ?_, ?_⟩ <;> rw [hv _ (by decide)]
  · rw [show douglasRachfordCert.val "alpha" = 0 by decide +kernel]; norm_num
  · rw [show douglasRachfordCert.val "beta" = 0 by decide +kernel]; norm_num
  · rw [show douglasRachfordCert.val "delta" = 0 by decide +kernel]; norm_num
  · rw [show douglasRachfordCert.val "eta" = 1/1000 by decide +kernel]; norm_num
  · rw [show douglasRachfordCert.val "gamma" = 1/2 by decide +kernel]; norm_num
  · rw [show douglasRachfordCert.val "h" = 1/2 by decide +kernel]; norm_num
  · rw [show douglasRachfordCert.val "rho" = 1/1000 by decide +kernel]; norm_num

/-- certificate for `davisYin (1/2) (some 1) (1/10) 1` at `alpha = 0`, `beta = 0`, `delta = 0`, `eta = 1/10000`, `gamma = 1`, `h = 1/4`, `rho = 1/10000` -/
def davisYinCert : Cert where
  env := [("alpha", 0), ("beta", 0), ("delta", 0), ("eta", 1/10000), ("gamma", 1), ("h", 1/4), ("rho", 1/10000)]
  mult := [(.tup 0 0 0 1, 1/10000), (.tup 0 0 0 3, 1/2), (.tup 0 0 1 2, 3), (.tup 0 0 1 3, 1), (.tup 0 0 2 1, 3), (.tup 0 0 2 3, 5), (.tup 0 0 3 0, 1/2), (.tup 0 0 3 1, 1), (.tup 0 0 3 2, 5), (.tup 0 1 0 1, 1/10000), (.tup 0 1 0 2, 1/2), (.tup 0 1 0 3, 1/2), (.tup 0 1 1 2, 9/2), (.tup 0 1 1 3, 1), (.tup 0 1 2 0, 1/2), (.tup 0 1 2 1, 9/2), (.tup 0 1 2 3, 7), (.tup 0 1 3 0, 1/2), (.tup 0 1 3 1, 1), (.tup 0 1 3 2, 7), (.tup 0 2 0 2, 1/10000), (.tup 0 2 0 3, 1/2), (.tup 0 2 0 4, 1/2), (.tup 0 2 1 2, 5/2), (.tup 0 2 1 3, 1/2), (.tup 0 2 1 4, 1/2), (.tup 0 2 2 1, 5/2), (.tup 0 2 2 3, 9/2), (.tup 0 2 2 4, 1), (.tup 0 2 3 0, 1/2), (.tup 0 2 3 1, 1/2), (.tup 0 2 3 2, 9/2), (.tup 0 2 3 4, 7), (.tup 0 2 4 0, 1/2), (.tup 0 2 4 1, 1/2), (.tup 0 2 4 2, 1), (.tup 0 2 4 3, 7)]
  L := [[], [15000/50003], [0, 1000110003/1387690006], [-18527/1000060, 1496928137/55507600240, -1241864995523/59178625750015], [-1, 0, 0, 0], [100479/1000060, -38146863/55507600240, 94938272731/177535877250045, 1157095813507912951/74849816772169823071, 0], [50023/500030, -65003/1387690006, 65003/1775270009, -45457291308335870400/74849816772169823071, 0, -1240386757134828654356370/6766826717314949366877449], [100519/1000060, -38746863/55507600240, 89499897701/177535877250045, 1160176565620149751/74849816772169823071, 0, -502961783519552982634586/6766826717314949366877449, -44789161162625716422099366933/529401221830750855587886226767], [5052/50003, -3294061/693845003, 136625943143/35507175450009, 39331067058685751720/74849816772169823071, 0, -5338973612056047140068069/6766826717314949366877449, -42549070733579642301650193333/529401221830750855587886226767, -5212626647152816776892169276017/68434951695108425408497674128794], [3000/50003, 7501125/693845003, -438829002850/35507175450009, -2499972563334612800/74849816772169823071, 0, 407106007555278894301460/6766826717314949366877449, -441470402222910610137120521600/529401221830750855587886226767, -44332776856324491005888968574252/581697089408421615972230230094749, -23900986911924871532942689579805684/145857835927531809951097747909354165], [18050/50003, -104123125/1387690006, -11929633212460/35507175450009, 6920886389841478120/74849816772169823071, 0, -145774795572973009795924/6766826717314949366877449, -10991148787674771468818625900/529401221830750855587886226767, -1040622250198616475869563848626027/1163394178816843231944460460189498, -2282963553229071761841156354200879/29171567185506361990219549581870833, -461467847414428686516669214783485064320/5580570727952699863284870237883852083797], [15000/50003, 212516125/693845003, 1745687009050/11835725150003, -32163960243302516800/74849816772169823071, 0, -1116644592581739616317315/6766826717314949366877449, -7359503112570982257982016800/529401221830750855587886226767, -16167728483642625429658156468567/1163394178816843231944460460189498, -125543095206913788764034418246076229/145857835927531809951097747909354165, -369663898218860318893016649806638664678/5580570727952699863284870237883852083797, -272034548883453483711293146716782161372101/3599517612421259248613227054718243896662520], [16000/50003, -310015000/693845003, 12262451029400/35507175450009, -50606194026468228800/74849816772169823071, 0, 106435161999376170017210/6766826717314949366877449, -144667229028581006152020379050/529401221830750855587886226767, -8155179415526915476189505575306/581697089408421615972230230094749, 1985017807978249901153058533789412/29171567185506361990219549581870833, -6045542338874278676823363125521820288295/5580570727952699863284870237883852083797, -267775472883839526152361657557893803400351/3599517612421259248613227054718243896662520, -168882594414733855739979729635318552139918487/2061124635697071901521892013756053697673084523], [15000/50003, -37498875/693845003, -12515639062850/35507175450009, -31794704081430516800/74849816772169823071, 0, -78109008487647597607190/6766826717314949366877449, -956099470440272810336681050/529401221830750855587886226767, -227747841161929569039053559862587/1163394178816843231944460460189498, -2561080105888263217971615139854229/145857835927531809951097747909354165, -3503763507150127021823672854483140178/5580570727952699863284870237883852083797, -3867293085305098774765588712276137700062871/3599517612421259248613227054718243896662520, -168882594414733855739979729635318552139918487/2061124635697071901521892013756053697673084523, 1], [13000/50003, 201265000/693845003, 1895709509800/11835725150003, -32037843754860036800/74849816772169823071, 0, -1038054100257336200529765/6766826717314949366877449, -6827835574590136141622463750/529401221830750855587886226767, -96765529231151163665957069130/581697089408421615972230230094749, -6858127718530328642848145314827312/29171567185506361990219549581870833, -95307712702718494645476237831329539820/5580570727952699863284870237883852083797, 425907599961395755893148915888835797175/359951761242125924861322705471824389666252, -2230007230111805757261871743391372249813003010/2061124635697071901521892013756053697673084523, 1, 0]]
  d := [50003/20000, 693845003/250015000, 35507175450009/13876900060000, 74849816772169823071/3029945638400768000000, 0, 6766826717314949366877449/1122747251582547346065000, 529401221830750855587886226767/67668267173149493668774490000, 581697089408421615972230230094749/52940122183075085558788622676700, 29171567185506361990219549581870833/2737398067804337016339906965151760, 5580570727952699863284870237883852083797/495916642153608153833732342891804161000, 89987940310531481215330676367956097416563/5580570727952699863284870237883852083797, 2061124635697071901521892013756053697673084523/143980704496850369944529082188729755866500800, 405597340496460720486923187866589168501408143/16488997085576575212175136110048429581384676184, 0, 0]

/-- samples -/
def davisYinS0 : List Samp := [⟨vecQ 15 1 [(0, 1)], vecQ 15 1 [(1, 1)], vecQ 13 1 [(1, 1)]⟩,
  ⟨vecQ 15 10 [(3, 1), (4, 10), (6, -1)], vecQ 15 1 [(6, 1)], vecQ 13 1 [(4, 1)]⟩,
  ⟨vecQ 15 400 [(3, 39), (4, 400), (5, -41), (6, -40), (7, -41), (9, -40)], vecQ 15 1 [(9, 1)], vecQ 13 1 [(7, 1)]⟩,
  ⟨vecQ 15 400 [(3, 39), (4, 400), (5, -41), (6, -40), (7, -41), (8, -40), (9, -40), (10, -40), (12, -40)], vecQ 15 1 [(12, 1)], vecQ 13 1 [(10, 1)]⟩]
/-- samples -/
def davisYinS1 : List Samp := [⟨vecQ 15 1 [(0, 1)], vecQ 15 1 [(2, 1)], vecQ 13 1 [(2, 1)]⟩,
  ⟨vecQ 15 10 [(4, 10), (5, -1), (6, -1), (7, -1)], vecQ 15 1 [(7, 1)], vecQ 13 1 [(5, 1)]⟩,
  ⟨vecQ 15 10 [(4, 10), (5, -1), (6, -1), (7, -1), (8, -1), (9, -1), (10, -1)], vecQ 15 1 [(10, 1)], vecQ 13 1 [(8, 1)]⟩,
  ⟨vecQ 15 10 [(4, 10), (5, -1), (6, -1), (7, -1), (8, -1), (9, -1), (10, -1), (11, -1), (12, -1), (13, -1)], vecQ 15 1 [(13, 1)], vecQ 13 1 [(11, 1)]⟩]
/-- samples -/
def davisYinS2 : List Samp := [⟨vecQ 15 1 [(0, 1)], vecQ 15 1 [(1, -1), (2, -1)], vecQ 13 1 [(0, 1), (1, -1), (2, -1)]⟩,
  ⟨vecQ 15 1 [(4, 1)], vecQ 15 1 [(5, 1)], vecQ 13 1 [(3, 1)]⟩,
  ⟨vecQ 15 10 [(4, 10), (5, -1), (6, -1), (7, -1)], vecQ 15 1 [(8, 1)], vecQ 13 1 [(6, 1)]⟩,
  ⟨vecQ 15 10 [(4, 10), (5, -1), (6, -1), (7, -1), (8, -1), (9, -1), (10, -1)], vecQ 15 1 [(11, 1)], vecQ 13 1 [(9, 1)]⟩,
  ⟨vecQ 15 10 [(4, 10), (5, -1), (6, -1), (7, -1), (8, -1), (9, -1), (10, -1), (11, -1), (12, -1), (13, -1)], vecQ 15 1 [(14, 1)], vecQ 13 1 [(12, 1)]⟩]
/-- equality -/
def davisYinE0 : QuadQ := ⟨vecQ 13 1 [], rowsQ 15 []⟩
/-- coordinates -/
def davisYinD : Coord where
  dimG := 15
  dimF := 13
  fns := [(.smoothStrongly (1/2) 1, davisYinS0), (.smoothStrongly (1/2) 1, davisYinS1), (.smoothStrongly (1/2) 1, davisYinS2)]
  eqs := [davisYinE0]
  met := ⟨vecQ 13 10000 [(0, -1), (4, 1), (5, 1), (6, 1)], rowsQ 15 [(0, vecQ 15 16000 [(3, -39), (5, 1), (7, 1), (8, -40), (9, 1600), (10, 1560), (11, 1600), (12, 1600), (13, 1600), (14, 1600)]), (1, vecQ 15 400000 [(3, 4871), (5, -129), (7, -129), (8, 5000), (10, 5000)]), (2, vecQ 15 160000 [(3, -39), (5, 1), (7, 1), (8, -40), (9, 1600), (10, 1560), (11, 1600), (12, 1600), (13, 1600), (14, 1600)]), (3, vecQ 15 256000000 [(0, -624000), (1, 3120000), (2, -62400), (3, -6125549), (4, 624000), (5, 97291), (6, -62400), (7, 97291), (8, -3165240), (9, 2433600), (10, -669240), (11, 2433600), (12, 2433600), (13, 2433600), (14, 2433600)]), (4, vecQ 15 16000 [(3, 39), (5, -1), (7, -1), (8, 40), (9, -1600), (10, -1560), (11, -1600), (12, -1600), (13, -1600), (14, -1600)]), (5, vecQ 15 256000000 [(0, 16000), (1, -80000), (2, 1600), (3, 97291), (4, -16000), (5, 1731), (6, 1600), (7, 1731), (8, 17160), (9, 2497600), (10, 2513160), (11, 2497600), (12, 2497600), (13, 2497600), (14, 2497600)]), (6, vecQ 15 160000 [(3, -39), (5, 1), (7, 1), (8, -40), (9, 1600), (10, 1560), (11, 1600), (12, 1600), (13, 1600), (14, 1600)]), (7, vecQ 15 256000000 [(0, 16000), (1, -80000), (2, 1600), (3, 97291), (4, -16000), (5, 1731), (6, 1600), (7, 1731), (8, 17160), (9, 2497600), (10, 2513160), (11, 2497600), (12, 2497600), (13, 2497600), (14, 2497600)]), (8, vecQ 15 6400000 [(0, -16000), (1, 80000), (2, -1600), (3, -79131), (4, 16000), (5, 429), (6, -1600), (7, 429), (8, -1160), (9, 62400), (10, 62840), (11, 62400), (12, 62400), (13, 62400), (14, 62400)]), (9, vecQ 15 160000 [(0, 16000), (2, 1600), (3, 1521), (4, -16000), (5, 1561), (6, 1600), (7, 1561), (8, 1560), (9, 1600), (10, 1560), (11, 1600), (12, 1600), (13, 1600), (14, 1600)]), (10, vecQ 15 6400000 [(0, 624000), (1, 80000), (2, 62400), (3, -16731), (4, -624000), (5, 62829), (6, 62400), (7, 62829), (8, 62840), (9, 62400), (10, 62840), (11, 62400), (12, 62400), (13, 62400), (14, 62400)]), (11, vecQ 15 160000 [(0, 16000), (2, 1600), (3, 1521), (4, -16000), (5, 1561), (6, 1600), (7, 1561), (8, 1560), (9, 1600), (10, 1560), (11, 1600), (12, 1600), (13, 1600), (14, 1600)]), (12, vecQ 15 160000 [(0, 16000), (2, 1600), (3, 1521), (4, -16000), (5, 1561), (6, 1600), (7, 1561), (8, 1560), (9, 1600), (10, 1560), (11, 1600), (12, 1600), (13, 1600), (14, 1600)]), (13, vecQ 15 160000 [(0, 16000), (2, 1600), (3, 1521), (4, -16000), (5, 1561), (6, 1600), (7, 1561), (8, 1560), (9, 1600), (10, 1560), (11, 1600), (12, 1600), (13, 1600), (14, 1600)]), (14, vecQ 15 160000 [(0, 16000), (2, 1600), (3, 1521), (4, -16000), (5, 1561), (6, 1600), (7, 1561), (8, 1560), (9, 1600), (10, 1560), (11, 1600), (12, 1600), (13, 1600), (14, 1600)])]⟩

/-- the nonlinear program of `davisYin` is feasible -/
theorem C34_davisYin_feasible : ∃ p, IpoptFeasible refCAS (davisYin (1/2) (some 1) (1/10) 1).prog stdParams p ∧ p "alpha" = 0 ∧ p "beta" = 0 ∧ p "delta" = 0 ∧ p "eta" = 1/10000 ∧ p "gamma" = 1 ∧ p "h" = 1/4 ∧ p "rho" = 1/10000 := by
  obtain ⟨p, hp, hv⟩ := feasible_of_checks (prog := (davisYin (1/2) (some 1) (1/10) 1).prog) refCAS_lawful stdParams_simple davisYinCert 36 (D := davisYinD) (by decide +kernel)
    (by decide +kernel) (by decide +kernel)
  refine ⟨p, hp, ?_, ?_, ?_, ?_, ?_, ?_, ?_⟩ <;> rw [hv _ (by decide)]
  · rw [show davisYinCert.val "alpha" = 0 by decide +kernel]; norm_num
  · rw [show davisYinCert.val "beta" = 0 by decide +kernel]; norm_num
  · rw [show davisYinCert.val "delta" = 0 by decide +kernel]; norm_num
  · rw [show davisYinCert.val "eta" = 1/10000 by decide +kernel]; norm_num
  · rw [show davisYinCert.val "gamma" = 1 by decide +kernel]; norm_num
  · rw [show davisYinCert.val "h" = 1/4 by decide +kernel]; norm_num
  · rw [show davisYinCert.val "rho" = 1/10000 by decide +kernel]; norm_num

/-- certificate for `admmConsensusProof 0 (some 1) 1` at `alpha = 1`, `beta = 1/2`, `delta = 0`, `eta = 1/1000`, `gamma = 0`, `h = 1/2`, `rho = 1/1000` -/
def admmConsensusProofCert : Cert where
  env := [("alpha", 1), ("beta", 1/2), ("delta", 0), ("eta", 1/1000), ("gamma", 0), ("h", 1/2), ("rho", 1/1000)]
  mult := [(.tup 0 0 0 1, 2), (.tup 0 0 1 0, 2), (.tup 0 1 0 1, 2), (.tup 0 1 1 0, 2)]
  L := [[], [], [], [0, -1/4, 0], [0, -5/8, 0, 1/2], [0, 5/8, 0, -1/2, 1]]
  d := [0, 4, 0, 156/125, 5/4, 0]

/-- samples -/
def admmConsensusProofS0 : List Samp := [⟨vecQ 6 1 [(0, 1)], vecQ 6 1 [(1, 1)], vecQ 4 1 [(1, 1)]⟩,
  ⟨vecQ 6 1 [(2, 1), (3, -1), (4, -1)], vecQ 6 1 [(4, 1)], vecQ 4 1 [(2, 1)]⟩]
/-- samples -/
def admmConsensusProofS1 : List Samp := [⟨vecQ 6 1 [(0, 1)], vecQ 6 1 [(1, -1)], vecQ 4 1 [(0, 1), (1, -1)]⟩,
  ⟨vecQ 6 1 [(2, 1), (3, 1), (5, -1)], vecQ 6 1 [(5, 1)], vecQ 4 1 [(3, 1)]⟩]
/-- coordinates -/
def admmConsensusProofD : Coord where
  dimG := 6
  dimF := 4
  fns := [(.smoothConvex 1, admmConsensusProofS0), (.smoothConvex 1, admmConsensusProofS1)]
  eqs := []
  met := ⟨vecQ 4 1 [], rowsQ 6 [(0, vecQ 6 1 [(4, 1), (5, 1)]), (1, vecQ 6 2 [(3, -2), (4, -1), (5, 1)]), (2, vecQ 6 1 [(4, -1), (5, -1)]), (3, vecQ 6 1000 [(1, -1000), (3, -1498), (4, -249), (5, 249)]), (4, vecQ 6 2000 [(0, 2000), (1, -1000), (2, -2000), (3, -498), (4, 1751), (5, 1249)]), (5, vecQ 6 2000 [(0, 2000), (1, 1000), (2, -2000), (3, 498), (4, 1249), (5, 1751)])]⟩

/-- the nonlinear program of `admmConsensusProof` is feasible -/
theorem C34_admmConsensusProof_feasible : ∃ p, IpoptFeasible refCAS (admmConsensusProof 0 (some 1) 1).prog stdParams p ∧ p "alpha" = 1 ∧ p "beta" = 1/2 ∧ p "delta" = 0 ∧ p "eta" = 1/1000 ∧ p "gamma" = 0 ∧ p "h" = 1/2 ∧ p "rho" = 1/1000 := by
  obtain ⟨p, hp, hv⟩ := feasible_of_checks (prog := (admmConsensusProof 0 (some 1) 1).prog) refCAS_lawful stdParams_simple admmConsensusProofCert 16 (D := admmConsensusProofD) (by decide +kernel)
    (by decide +kernel) (by decide +kernel)
  refine ⟨p, hp, ?_, ?_, ?_, ?_, ?_, ?_, ?_⟩ <;> rw [hv _ (by decide)]
  · rw [show admmConsensusProofCert.val "alpha" = 1 by decide +kernel]; norm_num
  · rw [show admmConsensusProofCert.val "beta" = 1/2 by decide +kernel]; norm_num
  · rw [show admmConsensusProofCert.val "delta" = 0 by decide +kernel]; norm_num
  · rw [show admmConsensusProofCert.val "eta" = 1/1000 by decide +kernel]; norm_num
  · rw [show admmConsensusProofCert.val "gamma" = 0 by decide +kernel]; norm_num
  · rw [show admmConsensusProofCert.val "h" = 1/2 by decide +kernel]; norm_num
  · rw [show admmConsensusProofCert.val "rho" = 1/1000 by decide +kernel]; norm_num

/-- certificate for `primalDecomposition 2 0 (some 1) 1` at `alpha = 1`, `beta = 1/2`, `delta = 0`, `eta = 1/1000`, `gamma = 0`, `h = 1/2`, `rho = 1/1000` -/
def primalDecompositionCert : Cert where
  env := [("alpha", 1), ("beta", 1/2), ("delta", 0), ("eta", 1/1000), ("gamma", 0), ("h", 1/2), ("rho", 1/1000)]
  mult := [(.tup 0 0 0 1, 249/1000), (.tup 0 0 0 2, 1/4), (.tup 0 0 1 0, 249/1000), (.tup 0 0 1 2, 1/4), (.tup 0 0 2 0, 1/4), (.tup 0 0 2 1, 1/4), (.tup 0 1 0 1, 249/1000), (.tup 0 1 0 2, 1/4), (.tup 0 1 1 0, 249/1000), (.tup 0 1 1 2, 1/4), (.tup 0 1 2 0, 1/4), (.tup 0 1 2 1, 1/4), (.tup 0 2 0 1, 249/1000), (.tup 0 2 0 2, 1/4), (.tup 0 2 1 0, 249/1000), (.tup 0 2 1 2, 1/4), (.tup 0 2 2 0, 1/4), (.tup 0 2 2 1, 1/4)]
  L := [[], [], [0, 1/2], [], [0, -249/998, 83/499, 0], [0, 0, -166/499, 0, -20837/47163], [0, 249/998, 83/499, 0, -20837/47163, -20837/26326], [0, -125/499, 250/1497, 0, -477875/518793, 20459/144793, 82/121], [0, 0, -500/1497, 0, 270125/518793, -124334/144793, 82/121, 1], [0, 125/499, 250/1497, 0, 270125/518793, 270125/289586, -39/121, 1, 0]]
  d := [0, 499/500, 1497/2000, 0, 518793/1996000, 4922962/23534337, 2057/26326, 181/1452, 0, 0]

/-- samples -/
def primalDecompositionS0 : List Samp := [⟨vecQ 10 1 [(0, 1)], vecQ 10 1 [(1, 1)], vecQ 9 1 [(1, 1)]⟩,
  ⟨vecQ 10 1 [(3, 1)], vecQ 10 1 [(4, 1)], vecQ 9 1 [(3, 1)]⟩,
  ⟨vecQ 10 2 [(3, 2), (4, -1), (5, -1), (6, -1)], vecQ 10 1 [(7, 1)], vecQ 9 1 [(6, 1)]⟩]
/-- samples -/
def primalDecompositionS1 : List Samp := [⟨vecQ 10 1 [(0, 1)], vecQ 10 1 [(2, 1)], vecQ 9 1 [(2, 1)]⟩,
  ⟨vecQ 10 1 [(3, 1)], vecQ 10 1 [(5, 1)], vecQ 9 1 [(4, 1)]⟩,
  ⟨vecQ 10 2 [(3, 2), (4, -1), (5, -1), (6, -1)], vecQ 10 1 [(8, 1)], vecQ 9 1 [(7, 1)]⟩]
/-- samples -/
def primalDecompositionS2 : List Samp := [⟨vecQ 10 1 [(0, 1)], vecQ 10 1 [(1, -1), (2, -1)], vecQ 9 1 [(0, 1), (1, -1), (2, -1)]⟩,
  ⟨vecQ 10 1 [(3, 1)], vecQ 10 1 [(6, 1)], vecQ 9 1 [(5, 1)]⟩,
  ⟨vecQ 10 2 [(3, 2), (4, -1), (5, -1), (6, -1)], vecQ 10 1 [(9, 1)], vecQ 9 1 [(8, 1)]⟩]
/-- coordinates -/
def primalDecompositionD : Coord where
  dimG := 10
  dimF := 9
  fns := [(.smoothConvex 1, primalDecompositionS0), (.smoothConvex 1, primalDecompositionS1), (.smoothConvex 1, primalDecompositionS2)]
  eqs := []
  met := ⟨vecQ 9 1 [], rowsQ 10 [(0, vecQ 10 1000 [(4, 124), (5, 124), (6, 124), (7, 125), (8, 125), (9, 125)]), (3, vecQ 10 1000 [(4, -124), (5, -124), (6, -124), (7, -125), (8, -125), (9, -125)]), (4, vecQ 10 32 [(0, 4), (3, -4), (4, 1), (5, 1), (6, 1), (7, 1), (8, 1), (9, 1)]), (5, vecQ 10 32 [(0, 4), (3, -4), (4, 1), (5, 1), (6, 1), (7, 1), (8, 1), (9, 1)]), (6, vecQ 10 32 [(0, 4), (3, -4), (4, 1), (5, 1), (6, 1), (7, 1), (8, 1), (9, 1)]), (7, vecQ 10 32 [(0, 4), (3, -4), (4, 1), (5, 1), (6, 1), (7, 1), (8, 1), (9, 1)]), (8, vecQ 10 32 [(0, 4), (3, -4), (4, 1), (5, 1), (6, 1), (7, 1), (8, 1), (9, 1)]), (9, vecQ 10 32 [(0, 4), (3, -4), (4, 1), (5, 1), (6, 1), (7, 1), (8, 1), (9, 1)])]⟩

/-- the nonlinear program of `primalDecomposition` is feasible -/
theorem C34_primalDecomposition_feasible : ∃ p, IpoptFeasible refCAS (primalDecomposition 2 0 (some 1) 1).prog stdParams p ∧ p "alpha" = 1 ∧ p "beta" = 1/2 ∧ p "delta" = 0 ∧ p "eta" = 1/1000 ∧ p "gamma" = 0 ∧ p "h" = 1/2 ∧ p "rho" = 1/1000 := by
  obtain ⟨p, hp, hv⟩ := feasible_of_checks (prog := (primalDecomposition 2 0 (some 1) 1).prog) refCAS_lawful stdParams_simple primalDecompositionCert 19 (D := primalDecompositionD) (by decide +kernel)
    (by decide +kernel) (by decide +kernel)
  refine ⟨p, hp, ?_, ?_, ?_, ?_, ?_, ?_, ?_⟩ <;> rw [hv _ (by decide)]
  · rw [show primalDecompositionCert.val "alpha" = 1 by decide +kernel]; norm_num
  · rw [show primalDecompositionCert.val "beta" = 1/2 by decide +kernel]; norm_num
  · rw [show primalDecompositionCert.val "delta" = 0 by decide +kernel]; norm_num
  · rw [show primalDecompositionCert.val "eta" = 1/1000 by decide +kernel]; norm_num
  · rw [show primalDecompositionCert.val "gamma" = 0 by decide +kernel]; norm_num
  · rw [show primalDecompositionCert.val "h" = 1/2 by decide +kernel]; norm_num
  · rw [show primalDecompositionCert.val "rho" = 1/1000 by decide +kernel]; norm_num

/-- certificate for `dualDecomposition 1 (1/2) (some 1) 1` at `alpha = 0`, `beta = 1`, `delta = 0`, `eta = 1/1000`, `gamma = 0`, `h = 1/4`, `rho = 1/1000` -/
def dualDecompositionCert : Cert where
  env := [("alpha", 0), ("beta", 1), ("delta", 0), ("eta", 1/1000), ("gamma", 0), ("h", 1/4), ("rho", 1/1000)]
  mult := [(.tup 0 0 0 1, 1/2), (.tup 0 0 0 2, 1/2), (.tup 0 0 1 0, 1/2), (.tup 0 0 1 2, 120), (.tup 0 0 2 0, 1/2), (.tup 0 0 2 1, 120), (.tup 0 1 0 1, 1/2), (.tup 0 1 0 2, 1/2), (.tup 0 1 1 0, 1/2), (.tup 0 1 1 2, 120), (.tup 0 1 2 0, 1/2), (.tup 0 1 2 1, 120), (.tup 0 2 0 1, 1/2), (.tup 0 2 0 2, 1/2), (.tup 0 2 1 0, 1/2), (.tup 0 2 1 2, 120), (.tup 0 2 2 0, 1/2), (.tup 0 2 2 1, 120)]
  L := [[], [], [0, 1/2], [0, -1, 0], [-1/6, 1251/8000, -417/4000, 0], [0, -1/2, -1, 0, 0], [-1/6, 0, 417/2000, 0, -184999/2886369998, 0], [-1/6, -1251/8000, -417/4000, 0, -184999/2886369998, 0, -184999/2886184999], [-1/6, 3/16, -1/8, 0, -1442876500/1443184999, 0, -98925346000000/925681303458876667, -102833/962184999], [-1/6, 0, 1/4, 0, -61750/1443184999, 0, -925483433742874500/925681303458876667, -102833/962184999, -1/2], [-1/6, -3/16, -1/8, 0, -61750/1443184999, 0, -123500/2886184999, -961979333/962184999, -1/2, -1]]
  d := [3, 4, 3, 0, 1443184999/12000000, 0, 2777043910376630001/23090959984000000, 1388432953557/11544739996, 14585128/962184999, 3646282/320728333, 0]

/-- samples -/
def dualDecompositionS0 : List Samp := [⟨vecQ 11 1 [(0, 1)], vecQ 11 1 [(1, 1)], vecQ 9 1 [(1, 1)]⟩,
  ⟨vecQ 11 1 [(4, 1)], vecQ 11 1 [(3, 1)], vecQ 9 1 [(3, 1)]⟩,
  ⟨vecQ 11 1 [(8, 1)], vecQ 11 1 [(3, 1)], vecQ 9 1 [(6, 1)]⟩]
/-- samples -/
def dualDecompositionS1 : List Samp := [⟨vecQ 11 1 [(0, 1)], vecQ 11 1 [(2, 1)], vecQ 9 1 [(2, 1)]⟩,
  ⟨vecQ 11 1 [(6, 1)], vecQ 11 1 [(5, 1)], vecQ 9 1 [(4, 1)]⟩,
  ⟨vecQ 11 1 [(9, 1)], vecQ 11 1 [(5, 1)], vecQ 9 1 [(7, 1)]⟩]
/-- samples -/
def dualDecompositionS2 : List Samp := [⟨vecQ 11 1 [(0, 1)], vecQ 11 1 [(1, -1), (2, -1)], vecQ 9 1 [(0, 1), (1, -1), (2, -1)]⟩,
  ⟨vecQ 11 1 [(7, 1)], vecQ 11 1 [(3, -1), (5, -1)], vecQ 9 1 [(5, 1)]⟩,
  ⟨vecQ 11 1 [(10, 1)], vecQ 11 1 [(3, -1), (5, -1)], vecQ 9 1 [(8, 1)]⟩]
/-- coordinates -/
def dualDecompositionD : Coord where
  dimG := 11
  dimF := 9
  fns := [(.smoothStrongly (1/2) 1, dualDecompositionS0), (.smoothStrongly (1/2) 1, dualDecompositionS1), (.smoothStrongly (1/2) 1, dualDecompositionS2)]
  eqs := []
  met := ⟨vecQ 9 1 [], rowsQ 11 [(1, vecQ 11 8 [(4, 1), (7, -1)]), (2, vecQ 11 8 [(6, 1), (7, -1)]), (3, vecQ 11 8 [(4, -1), (7, 1)]), (4, vecQ 11 12000 [(1, 1488), (3, -1488), (4, 250), (6, -125), (7, -125)]), (5, vecQ 11 8 [(6, -1), (7, 1)]), (6, vecQ 11 12000 [(2, 1488), (4, -125), (5, -1488), (6, 250), (7, -125)]), (7, vecQ 11 12000 [(1, -1488), (2, -1488), (3, 1488), (4, -125), (5, 1488), (6, -125), (7, 250)])]⟩

/-- the nonlinear program of `dualDecomposition` is feasible -/
theorem C34_dualDecomposition_feasible : ∃ p, IpoptFeasible refCAS (dualDecomposition 1 (1/2) (some 1) 1).prog stdParams p ∧ p "alpha" = 0 ∧ p "beta" = 1 ∧ p "delta" = 0 ∧ p "eta" = 1/1000 ∧ p "gamma" = 0 ∧ p "h" = 1/4 ∧ p "rho" = 1/1000 := by
  obtain ⟨p, hp, hv⟩ := feasible_of_checks (prog := (dualDecomposition 1 (1/2) (some 1) 1).prog) refCAS_lawful stdParams_simple dualDecompositionCert 31 (D := dualDecompositionD) (by decide +kernel)
    (by decide +kernel) (by decide +kernel)
  refine ⟨p, hp, ?_, ?_, ?_, ?_, ?_, ?_, ?_⟩ <;> rw [hv _ (by decide)]
  · rw [show dualDecompositionCert.val "alpha" = 0 by decide +kernel]; norm_num
  · rw [show dualDecompositionCert.val "beta" = 1 by decide +kernel]; norm_num
  · rw [show dualDecompositionCert.val "delta" = 0 by decide +kernel]; norm_num
  · rw [show dualDecompositionCert.val "eta" = 1/1000 by decide +kernel]; norm_num
  · rw [show dualDecompositionCert.val "gamma" = 0 by decide +kernel]; norm_num
  · rw [show dualDecompositionCert.val "h" = 1/4 by decide +kernel]; norm_num
  · rw [show dualDecompositionCert.val "rho" = 1/1000 by decide +kernel]; norm_num

/-- certificate for `admmConsensus 1 (1/2) (some 1) 1 1` at `alpha = 0`, `beta = 0`, `delta = 0`, `eta = 1/1000`, `gamma = 1/2`, `h = 1/2`, `rho = 1/1000` -/
def admmConsensusCert : Cert where
  env := [("alpha", 0), ("beta", 0), ("delta", 0), ("eta", 1/1000), ("gamma", 1/2), ("h", 1/2), ("rho", 1/1000)]
  mult := [(.tup 0 0 0 1, 1), (.tup 0 0 0 2, 3001/1000), (.tup 0 0 1 0, 1), (.tup 0 0 1 2, 8), (.tup 0 0 2 0, 3), (.tup 0 0 2 1, 8), (.tup 0 1 0 1, 1), (.tup 0 1 0 2, 3001/1000), (.tup 0 1 1 0, 1), (.tup 0 1 1 2, 8), (.tup 0 1 2 0, 3), (.tup 0 1 2 1, 8), (.tup 0 2 0 1, 1), (.tup 0 2 0 2, 3001/1000), (.tup 0 2 1 0, 1), (.tup 0 2 1 2, 8), (.tup 0 2 2 0, 3), (.tup 0 2 2 1, 8)]
  L := [[], [], [0, 1/2], [-1, 0, 0], [0, 639/889, 0, 0], [0, 639/1778, 639/889, 0, 1/2], [32003/72009, -250/1143, 500/3429, 0, 28000/858833, -56000/2576499], [32003/72009, 0, -1000/3429, 0, 0, 112000/2576499, -4297597854785/15171263672743], [32003/72009, 250/1143, 500/3429, 0, -28000/858833, -56000/2576499, -4297597854785/15171263672743, -4297597854785/10873665817958], [6287/10287, -5126/8001, 10252/24003, 0, -914833/1717666, 914833/2576499, -16744859578160/15171263672743, -1573595905417/10873665817958, -1832249/7656981], [6287/10287, 0, -20504/24003, 0, 0, -1829666/2576499, 2724001949368/15171263672743, -12447261723375/10873665817958, -1832249/7656981, 1], [6287/10287, 5126/8001, 10252/24003, 0, 914833/1717666, 914833/2576499, 2724001949368/15171263672743, 1362000974684/5436832908979, -9489230/7656981, 1, 0]]
  d := [24003/2000, 8001/500, 24003/2000, 0, 858833/1778000, 2576499/7112000, 15171263672743/371062232982, 4409821566188367859304/117266237044676000271, 517548857809138/16310498726937, 37229141/1276163500, 0, 0]

/-- samples -/
def admmConsensusS0 : List Samp := [⟨vecQ 12 1 [(0, 1)], vecQ 12 1 [(1, 1)], vecQ 9 1 [(1, 1)]⟩,
  ⟨vecQ 12 1 [(3, 1), (4, 1), (6, -1)], vecQ 12 1 [(6, 1)], vecQ 9 1 [(3, 1)]⟩,
  ⟨vecQ 12 3 [(3, 3), (4, 3), (6, -1), (7, -1), (8, -1), (9, -3)], vecQ 12 1 [(9, 1)], vecQ 9 1 [(6, 1)]⟩]
/-- samples -/
def admmConsensusS1 : List Samp := [⟨vecQ 12 1 [(0, 1)], vecQ 12 1 [(2, 1)], vecQ 9 1 [(2, 1)]⟩,
  ⟨vecQ 12 1 [(3, 1), (5, 1), (7, -1)], vecQ 12 1 [(7, 1)], vecQ 9 1 [(4, 1)]⟩,
  ⟨vecQ 12 3 [(3, 3), (5, 3), (6, -1), (7, -1), (8, -1), (10, -3)], vecQ 12 1 [(10, 1)], vecQ 9 1 [(7, 1)]⟩]
/-- samples -/
def admmConsensusS2 : List Samp := [⟨vecQ 12 1 [(0, 1)], vecQ 12 1 [(1, -1), (2, -1)], vecQ 9 1 [(0, 1), (1, -1), (2, -1)]⟩,
  ⟨vecQ 12 1 [(3, 1), (4, -1), (5, -1), (8, -1)], vecQ 12 1 [(8, 1)], vecQ 9 1 [(5, 1)]⟩,
  ⟨vecQ 12 3 [(3, 3), (4, -3), (5, -3), (6, -1), (7, -1), (8, -1), (11, -3)], vecQ 12 1 [(11, 1)], vecQ 9 1 [(8, 1)]⟩]
/-- equality -/
def admmConsensusE0 : QuadQ := ⟨vecQ 9 1 [], rowsQ 12 []⟩
/-- coordinates -/
def admmConsensusD : Coord where
  dimG := 12
  dimF := 9
  fns := [(.smoothStrongly (1/2) 1, admmConsensusS0), (.smoothStrongly (1/2) 1, admmConsensusS1), (.smoothStrongly (1/2) 1, admmConsensusS2)]
  eqs := [admmConsensusE0]
  met := ⟨vecQ 9 1000 [(0, -1), (6, 1), (7, 1), (8, 1)], rowsQ 12 [(0, vecQ 12 6 [(6, 1), (7, 1), (8, 1), (9, 1), (10, 1), (11, 1)]), (1, vecQ 12 1000 [(4, 498), (5, 249), (9, -249), (11, 249)]), (2, vecQ 12 1000 [(4, 249), (5, 498), (10, -249), (11, 249)]), (3, vecQ 12 6 [(6, -1), (7, -1), (8, -1), (9, -1), (10, -1), (11, -1)]), (4, vecQ 12 4000 [(1, 2000), (2, 1000), (4, -2998), (5, -1499), (9, 499), (11, -499)]), (5, vecQ 12 4000 [(1, 1000), (2, 2000), (4, -1499), (5, -2998), (10, 499), (11, -499)]), (6, vecQ 12 18 [(0, 3), (3, -3), (6, 1), (7, 1), (8, 1), (9, 1), (10, 1), (11, 1)]), (7, vecQ 12 18 [(0, 3), (3, -3), (6, 1), (7, 1), (8, 1), (9, 1), (10, 1), (11, 1)]), (8, vecQ 12 18 [(0, 3), (3, -3), (6, 1), (7, 1), (8, 1), (9, 1), (10, 1), (11, 1)]), (9, vecQ 12 36000 [(0, 6000), (1, -9000), (3, -6000), (4, 4491), (6, 2000), (7, 2000), (8, 2000), (9, 5018), (10, 509), (11, 509)]), (10, vecQ 12 36000 [(0, 6000), (2, -9000), (3, -6000), (5, 4491), (6, 2000), (7, 2000), (8, 2000), (9, 509), (10, 5018), (11, 509)]), (11, vecQ 12 36000 [(0, 6000), (1, 9000), (2, 9000), (3, -6000), (4, -4491), (5, -4491), (6, 2000), (7, 2000), (8, 2000), (9, 509), (10, 509), (11, 5018)])]⟩

/-- the nonlinear program of `admmConsensus` is feasible -/
theorem C34_admmConsensus_feasible : ∃ p, IpoptFeasible refCAS (admmConsensus 1 (1/2) (some 1) 1 1).prog stdParams p ∧ p "alpha" = 0 ∧ p "beta" = 0 ∧ p "delta" = 0 ∧ p "eta" = 1/1000 ∧ p "gamma" = 1/2 ∧ p "h" = 1/2 ∧ p "rho" = 1/1000 := by
  obtain ⟨p, hp, hv⟩ := feasible_of_checks (prog := (admmConsensus 1 (1/2) (some 1) 1 1).prog) refCAS_lawful stdParams_simple admmConsensusCert 42 (D := admmConsensusD) (by decide +kernel)
    (by decide +kernel) (by decide +kernel)
  refine ⟨p, hp, ?_, ?_, ?_, ?_, ?_, ?_, ?_⟩ <;> rw [hv _ (by decide)]
  · rw [show admmConsensusCert.val "alpha" = 0 by decide +kernel]; norm_num
  · rw [show admmConsensusCert.val "beta" = 0 by decide +kernel]; norm_num
  · rw [show admmConsensusCert.val "delta" = 0 by decide +kernel]; norm_num
  · rw [show admmConsensusCert.val "eta" = 1/1000 by decide +kernel]; norm_num
  · rw [show admmConsensusCert.val "gamma" = 1/2 by decide +kernel]; norm_num
  · rw [show admmConsensusCert.val "h" = 1/2 by decide +kernel]; norm_num
  · rw [show admmConsensusCert.val "rho" = 1/1000 by decide +kernel]; norm_num

/-- certificate for `admmEulerConsensus 1 (1/2) (some 1) 1 1` at `alpha = 0`, `beta = 0`, `delta = 0`, `eta = 1/1000`, `gamma = 0`, `h = 1/2`, `rho = 1/1000` -/
def admmEulerConsensusCert : Cert where
  env := [("alpha", 0), ("beta", 0), ("delta", 0), ("eta", 1/1000), ("gamma", 0), ("h", 1/2), ("rho", 1/1000)]
  mult := [(.tup 0 0 0 1, 5001/1000), (.tup 0 0 1 0, 5), (.tup 0 1 0 1, 5001/1000), (.tup 0 1 1 0, 5), (.tup 0 2 0 1, 5001/1000), (.tup 0 2 1 0, 5), (.tup 1 0 1 0, 117)]
  L := [[], [], [0, 1/2], [0, 7251/10001, 0], [0, 7251/20002, 7251/10001, 1/2], [-1, 0, 0, 0, 0], [25003/30003, -8626/10001, 17252/30003, -1/2, 1/3, 0], [25003/30003, 0, -34504/30003, 0, -2/3, 0, 1], [25003/30003, 8626/10001, 17252/30003, 1/2, 1/3, 0, 1, 0]]
  d := [30003/2000, 10001/500, 30003/2000, 2346747/10001000, 7040241/40004000, 0, 376268873/30003000, 0, 0]

/-- samples -/
def admmEulerConsensusS0 : List Samp := [⟨vecQ 9 1 [(0, 1)], vecQ 9 1 [(1, 1)], vecQ 6 1 [(1, 1)]⟩,
  ⟨vecQ 9 1 [(3, 1), (5, 1), (6, -1)], vecQ 9 1 [(6, 1)], vecQ 6 1 [(3, 1)]⟩]
/-- samples -/
def admmEulerConsensusS1 : List Samp := [⟨vecQ 9 1 [(0, 1)], vecQ 9 1 [(2, 1)], vecQ 6 1 [(2, 1)]⟩,
  ⟨vecQ 9 1 [(4, 1), (5, 1), (7, -1)], vecQ 9 1 [(7, 1)], vecQ 6 1 [(4, 1)]⟩]
/-- samples -/
def admmEulerConsensusS2 : List Samp := [⟨vecQ 9 1 [(0, 1)], vecQ 9 1 [(1, -1), (2, -1)], vecQ 6 1 [(0, 1), (1, -1), (2, -1)]⟩,
  ⟨vecQ 9 1 [(3, -1), (4, -1), (5, 1), (8, -1)], vecQ 9 1 [(8, 1)], vecQ 6 1 [(5, 1)]⟩]
/-- equality -/
def admmEulerConsensusE0 : QuadQ := ⟨vecQ 6 1 [], rowsQ 9 []⟩
/-- equality -/
def admmEulerConsensusE1 : QuadQ := ⟨vecQ 6 1 [], rowsQ 9 [(6, vecQ 9 9 [(6, 1), (7, 1), (8, 1)]), (7, vecQ 9 9 [(6, 1), (7, 1), (8, 1)]), (8, vecQ 9 9 [(6, 1), (7, 1), (8, 1)])]⟩
/-- coordinates -/
def admmEulerConsensusD : Coord where
  dimG := 9
  dimF := 6
  fns := [(.smoothStrongly (1/2) 1, admmEulerConsensusS0), (.smoothStrongly (1/2) 1, admmEulerConsensusS1), (.smoothStrongly (1/2) 1, admmEulerConsensusS2)]
  eqs := [admmEulerConsensusE0, admmEulerConsensusE1]
  met := ⟨vecQ 6 1000 [(0, -1), (3, 1), (4, 1), (5, 1)], rowsQ 9 [(1, vecQ 9 1000 [(3, 498), (4, 249), (6, -249), (8, 249)]), (2, vecQ 9 1000 [(3, 249), (4, 498), (7, -249), (8, 249)]), (3, vecQ 9 500 [(1, 250), (2, 125), (3, -374), (4, -187), (6, 62), (8, -62)]), (4, vecQ 9 500 [(1, 125), (2, 250), (3, -187), (4, -374), (7, 62), (8, -62)]), (6, vecQ 9 500 [(1, -125), (3, 62), (6, 63)]), (7, vecQ 9 500 [(2, -125), (4, 62), (7, 63)]), (8, vecQ 9 500 [(1, 125), (2, 125), (3, -62), (4, -62), (8, 63)])]⟩

/-- the nonlinear program of `admmEulerConsensus` is feasible -/
theorem C34_admmEulerConsensus_feasible : ∃ p, IpoptFeasible refCAS (admmEulerConsensus 1 (1/2) (some 1) 1 1).prog stdParams p ∧ p "alpha" = 0 ∧ p "beta" = 0 ∧ p "delta" = 0 ∧ p "eta" = 1/1000 ∧ p "gamma" = 0 ∧ p "h" = 1/2 ∧ p "rho" = 1/1000 := by
  obtain ⟨p, hp, hv⟩ := feasible_of_checks (prog := (admmEulerConsensus 1 (1/2) (some 1) 1 1).prog) refCAS_lawful stdParams_simple admmEulerConsensusCert 32 (D := admmEulerConsensusD) (by decide +kernel)
    (by decide +kernel) (by decide +kernel)
  refine ⟨p, hp, ?_, ?_, ?_, ?_, ?_, ?_, ?_⟩ <;> rw [hv _ (by decide)]
  · rw [show admmEulerConsensusCert.val "alpha" = 0 by decide +kernel]; norm_num
  · rw [show admmEulerConsensusCert.val "beta" = 0 by decide +kernel]; norm_num
  · rw [show admmEulerConsensusCert.val "delta" = 0 by decide +kernel]; norm_num
  · rw [show admmEulerConsensusCert.val "eta" = 1/1000 by decide +kernel]; norm_num
  · rw [show admmEulerConsensusCert.val "gamma" = 0 by decide +kernel]; norm_num
  · rw [show admmEulerConsensusCert.val "h" = 1/2 by decide +kernel]; norm_num
  · rw [show admmEulerConsensusCert.val "rho" = 1/1000 by decide +kernel]; norm_num

end Verif
