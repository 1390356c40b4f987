import Verif.Model.Build

/-!
# The circuits of `classical_central_vi.py`

Every builder in ciropt mode (`params=None`), call by call in the order of the source.  Component values are rationals.  Divisions of a
scalar by a component value (`alpha * h / Capacitance`) are multiplications with the reciprocal; a component value 0 is outside the
model (SymPy makes an infinite coefficient).  Results: the builder returns what the proofs speak about (registers of the state and of the
energies); python returns the problem object.
-/

namespace Verif.Build


/-- registers of the energies and of the dissipation: `E_1`, `E_2`, `Delta_1` -/
structure Energies where
  e1 : EE
  e2 : EE
  delta : EE

/-- `problem.set_performance_metric(E_2 - (E_1 - Delta_1))`, the last call of every builder -/
def finishMetric (e1 e2 delta : EE) : Build Energies := do
  Build.metric (e2 - (e1 - delta))
  return ⟨e1, e2, delta⟩

/-- `gradient_flow_circuit` (`classical_central_vi.py` 17-44) -/
def gradientFlow (mu : ℚ) (L : Option ℚ) (Cap : ℚ) : Build Energies := do
  let func ← define mu L
  let (x_star, _, f_star) ← stationary func
  let x_1 ← initial
  let (y_1, f_1) ← oracle func x_1
  let x_1p5 ← pt (x_1 - (pAlpha * pH / Cap) * y_1)
  let (y_1p5, _) ← oracle func x_1p5
  let x_2 ← pt (x_1 - (pBeta * pH / Cap) * y_1 - ((1 - pBeta) * pH / Cap) * y_1p5)
  let _ ← oracle func x_2
  let E_1 ← ex ((Cap / 2) * (x_1 - x_star).sq)
  let E_2 ← ex ((Cap / 2) * (x_2 - x_star).sq)
  let Delta_1 ← ex (pEta * (f_1 - f_star))
  finishMetric E_1 E_2 Delta_1

/-- `gradient_flow_circuit_tuneC` (`classical_central_vi.py` 47-77), with the symbols `C`, `invC` -/
def gradientFlowTuneC (mu : ℚ) (L : Option ℚ) : Build Energies := do
  let C : Sym := .var "C"
  let invC : Sym := .var "invC"
  let func ← define mu L
  let (x_star, _, f_star) ← stationary func
  let x_1 ← initial
  let (y_1, f_1) ← oracle func x_1
  let x_1p5 ← pt (x_1 - (pAlpha * pH * invC) * y_1)
  let (y_1p5, _) ← oracle func x_1p5
  let x_2 ← pt (x_1 - (pBeta * pH * invC) * y_1 - ((1 - pBeta) * pH * invC) * y_1p5)
  let _ ← oracle func x_2
  let E_1 ← ex ((C / (2 : ℚ)) * (x_1 - x_star).sq)
  let E_2 ← ex ((C / (2 : ℚ)) * (x_2 - x_star).sq)
  let Delta_1 ← ex (pEta * (f_1 - f_star))
  finishMetric E_1 E_2 Delta_1

/-- `problem.discretization_params` of `gradient_flow_circuit_tuneC` (`classical_central_vi.py` 59) -/
def tuneCParams : List Name := ["C", "alpha", "beta", "delta", "eta", "gamma", "h", "invC", "rho"]

/-- `accelerated_gradient_circuit` (`classical_central_vi.py` 80-115) -/
def acceleratedGradient (mu : ℚ) (L : Option ℚ) (R Cap Ind : ℚ) : Build Energies := do
  let func ← define mu L
  let (x_star, y_star, f_star) ← stationary func
  let v_C_1 ← initial
  let i_L_1 ← initial
  let x_1 ← pt (R * i_L_1 + v_C_1)
  let (y_1, f_1) ← oracle func x_1
  let i_L_1p5 ← pt (i_L_1 + (pAlpha * pH / Ind) * (v_C_1 - (x_1 - R * y_1)))
  let v_C_1p5 ← pt (v_C_1 - (pAlpha * pH / Cap) * y_1)
  let x_1p5 ← pt (R * i_L_1p5 + v_C_1p5)
  let (y_1p5, _) ← oracle func x_1p5
  let i_L_2 ← pt (i_L_1 + (pBeta * pH / Ind) * (v_C_1 - (x_1 - R * y_1)) +
    ((1 - pBeta) * pH / Ind) * (v_C_1p5 - (x_1p5 - R * y_1p5)))
  let v_C_2 ← pt (v_C_1 - (pBeta * pH / Cap) * y_1 - ((1 - pBeta) * pH / Cap) * y_1p5)
  let x_2 ← pt (R * i_L_2 + v_C_2)
  let _ ← oracle func x_2
  let E_1 ← ex ((Cap / 2) * (v_C_1 - x_star).sq + (Ind / 2) * (i_L_1 - y_star).sq)
  let E_2 ← ex ((Cap / 2) * (v_C_2 - x_star).sq + (Ind / 2) * (i_L_2 - y_star).sq)
  let Delta_1 ← ex ((pRho * R) * (y_1 - i_L_1).sq + pEta * (f_1 - f_star))
  finishMetric E_1 E_2 Delta_1

/-- `accelerated_gradient_circuit_tuneRLC` (`classical_central_vi.py` 118-158) -/
def acceleratedGradientTuneRLC (mu : ℚ) (Ls : Option ℚ) : Build Energies := do
  let C : Sym := .var "C"
  let R : Sym := .var "R"
  let L : Sym := .var "L"
  let invC : Sym := .var "invC"
  let invL : Sym := .var "invL"
  let func ← define mu Ls
  let (x_star, y_star, f_star) ← stationary func
  let v_C_1 ← initial
  let i_L_1 ← initial
  let x_1 ← pt (R * i_L_1 + v_C_1)
  let (y_1, f_1) ← oracle func x_1
  let i_L_1p5 ← pt (i_L_1 + (pAlpha * pH * invL) * (v_C_1 - (x_1 - R * y_1)))
  let v_C_1p5 ← pt (v_C_1 - (pAlpha * pH * invC) * y_1)
  let x_1p5 ← pt (R * i_L_1p5 + v_C_1p5)
  let (y_1p5, _) ← oracle func x_1p5
  let i_L_2 ← pt (i_L_1 + (pBeta * pH * invL) * (v_C_1 - (x_1 - R * y_1)) +
    ((1 - pBeta) * pH * invL) * (v_C_1p5 - (x_1p5 - R * y_1p5)))
  let v_C_2 ← pt (v_C_1 - (pBeta * pH * invC) * y_1 - ((1 - pBeta) * pH * invC) * y_1p5)
  let x_2 ← pt (R * i_L_2 + v_C_2)
  let _ ← oracle func x_2
  let E_1 ← ex ((C / (2 : ℚ)) * (v_C_1 - x_star).sq + (L / (2 : ℚ)) * (i_L_1 - y_star).sq)
  let E_2 ← ex ((C / (2 : ℚ)) * (v_C_2 - x_star).sq + (L / (2 : ℚ)) * (i_L_2 - y_star).sq)
  let Delta_1 ← ex ((pRho * R) * (y_1 - i_L_1).sq + pEta * (f_1 - f_star))
  finishMetric E_1 E_2 Delta_1

/-- `problem.discretization_params` of `accelerated_gradient_circuit_tuneRLC` (`classical_central_vi.py` 131-132), sorted as python
sorts strings -/
def tuneRLCParams : List Name := ["C", "L", "R", "alpha", "beta", "delta", "eta", "gamma", "h", "invC", "invL", "rho"]

/-- `ppm_circuit` (`classical_central_vi.py` 161-192) -/
def ppm (mu : ℚ) (L : Option ℚ) (Cap R : ℚ) : Build Energies := do
  let func ← define mu L
  let (x_star, y_star, f_star) ← stationary func
  let x_1 ← initial
  let (x1_prox, _, _) ← prox x_1 func R
  let x_1p5 ← pt (x_1 - ((pAlpha * pH / Cap) * (x_1 - x1_prox)) / R)
  let (x1p5_prox, _, _) ← prox x_1p5 func R
  let i_R_1 ← pt ((x_1 - x1_prox) / R)
  let x_2 ← pt (x_1 - ((pBeta * pH / Cap) * (x_1 - x1_prox)) / R - (((1 - pBeta) * pH / Cap) * (x_1p5 - x1p5_prox)) / R)
  let (_, f_2) ← oracle func x_2
  let E_1 ← ex ((Cap / 2) * (x_1 - x_star).sq)
  let E_2 ← ex ((Cap / 2) * (x_2 - x_star).sq)
  let Delta_1 ← ex (pEta * (f_2 - f_star) + (pRho * R) * (i_R_1 - y_star).sq)
  finishMetric E_1 E_2 Delta_1

/-- `prox_gradient_circuit` (`classical_central_vi.py` 195-235) -/
def proxGradient (mu : ℚ) (L : Option ℚ) (R Cap : ℚ) : Build Energies := do
  let f ← define mu L
  let g ← define 0 none
  let func ← fn (f + g)
  let (x_star, y_star, _) ← stationary func
  let (y2_star, _) ← oracle f x_star
  let y1_star ← pt (y_star - y2_star)
  let e_star ← pt (x_star - R * y2_star)
  let x2_1 ← initial
  let (y2_1, _) ← oracle f x2_1
  let e_1 ← pt (x2_1 - R * y2_1)
  let (x1_1, _, _) ← prox e_1 g R
  let nabla ← pt ((e_1 - x1_1) / R)
  let x2_2 ← pt (x2_1 - (pH / Cap) * (nabla + y2_1))
  let (y2_2, _) ← oracle f x2_2
  let e_2 ← pt (x2_2 - R * y2_2)
  let _ ← prox e_2 g R
  let E_1 ← ex ((Cap / 2) * (e_1 - e_star).sq)
  let E_2 ← ex ((Cap / 2) * (e_2 - e_star).sq)
  let Delta_1 ← ex ((pEta * (invSmooth L - R)) * (y2_1 - y2_star).sq + (pRho * R) * (nabla - y1_star).sq)
  finishMetric E_1 E_2 Delta_1

/-- `douglas_rachford_splitting` (`classical_central_vi.py` 344-390) -/
def douglasRachford (mu : ℚ) (L : Option ℚ) (R Ind : ℚ) : Build Energies := do
  let f1 ← define mu L
  let f2 ← define mu L
  let (x_star, y_star, f_star) ← stationary (f1 + f2)
  let (y1_star, _) ← oracle f1 x_star
  let (y2_star, _) ← oracle f2 x_star
  equality (y1_star + y2_star - y_star).sq
  let i_L_0 ← initial
  let x2_0 ← initial
  let (x1_1, y1_1, f1_1) ← prox (x2_0 + R * i_L_0) f1 R
  let (x2_1, _, f2_1) ← prox (x1_1 - R * i_L_0) f2 R
  let i_L_1 ← pt (i_L_0 + (pH / Ind) * (x2_1 - x1_1))
  let (x1_1p5, _, _) ← prox (x2_1 + R * i_L_1) f1 R
  let (x2_1p5, _, _) ← prox (x1_1p5 - R * i_L_1) f2 R
  let i_L_1p5 ← pt (i_L_1 + (pAlpha * pH / Ind) * (x2_1 - x1_1))
  let (x1_2, _, _) ← prox (x2_1p5 + R * i_L_1p5) f1 R
  let (x2_2, _, _) ← prox (x1_2 - R * i_L_1p5) f2 R
  let i_L_2 ← pt (i_L_1 + (pBeta * pH / Ind) * (x2_1 - x1_1) + ((1 - pBeta) * pH / Ind) * (x2_1p5 - x1_1p5))
  let E_1 ← ex ((Ind / 2) * (i_L_1 - y1_star).sq + pGamma * (x2_1 - x_star).sq)
  let E_2 ← ex ((Ind / 2) * (i_L_2 - y1_star).sq + pGamma * (x2_2 - x_star).sq)
  let Delta_1 ← ex ((pRho * R) * (y1_1 - i_L_1).sq +
    pEta * (f1_1 + f2_1 - y1_star * (x1_1 - x_star) - y2_star * (x2_1 - x_star) - f_star))
  finishMetric E_1 E_2 Delta_1

/-- `davis_yin_splitting` (`classical_central_vi.py` 393-451) -/
def davisYin (mu : ℚ) (L : Option ℚ) (R Ind : ℚ) : Build Energies := do
  let f1 ← define mu L
  let f2 ← define mu L
  let f3 ← define mu L
  let (x_star, y_star, f_star) ← stationary (f1 + f2 + f3)
  let (y1_star, _) ← oracle f1 x_star
  let (y2_star, _) ← oracle f2 x_star
  let (y3_star, _) ← oracle f3 x_star
  equality (y1_star + y2_star + y3_star - y_star).sq
  let i_L_0 ← initial
  let x2_0 ← initial
  let (y3_0, _) ← oracle f3 x2_0
  let e_0 ← pt (x2_0 - R * i_L_0 - R * y3_0)
  let (x1_1, _, f1_1) ← prox ((2 : ℚ) * x2_0 - e_0 - R * y3_0) f1 R
  let (x2_1, _, f2_1) ← prox (x1_1 + e_0 - x2_0) f2 R
  let i_L_1 ← pt (i_L_0 + (pH / Ind) * (x2_1 - x1_1))
  let (y3_1, f3_1) ← oracle f3 x2_1
  let e_1 ← pt (x2_1 - R * y3_1 - R * i_L_1)
  let (x1_1p5, _, _) ← prox ((2 : ℚ) * x2_1 - e_1 - R * y3_1) f1 R
  let (x2_1p5, _, _) ← prox (x1_1p5 + e_1 - x2_1) f2 R
  let i_L_1p5 ← pt (i_L_1 + (pAlpha * pH / Ind) * (x2_1p5 - x1_1p5))
  let (y3_1p5, _) ← oracle f3 x2_1p5
  let e_1p5 ← pt (x2_1p5 - R * y3_1p5 - R * i_L_1p5)
  let (x1_2, _, _) ← prox ((2 : ℚ) * x2_1p5 - e_1p5 - R * y3_1p5) f1 R
  let (x2_2, _, _) ← prox (x1_2 + e_1p5 - x2_1p5) f2 R
  let i_L_2 ← pt (i_L_1 + (pBeta * pH / Ind) * (x2_1 - x1_1) + ((1 - pBeta) * pH / Ind) * (x2_1p5 - x1_1p5))
  let (y3_2, _) ← oracle f3 x2_2
  let e_2 ← pt (x2_2 - R * y3_2 - R * i_L_2)
  let e_star ← pt (x_star - R * y1_star - R * y3_star)
  let E_1 ← ex ((Ind / 2) * (i_L_1 - y1_star).sq + pGamma * (e_1 - e_star).sq)
  let E_2 ← ex ((Ind / 2) * (i_L_2 - y1_star).sq + pGamma * (e_2 - e_star).sq)
  let Delta_1 ← ex ((pRho * (1 / R)) * (x1_1 - x2_1).sq +
    pEta * (f1_1 + f2_1 + f3_1 - y1_star * (x1_1 - x_star) - y2_star * (x2_1 - x_star) - y3_star * (x2_1 - x_star) - f_star))
  finishMetric E_1 E_2 Delta_1

/-- `admm_consensus_proof` (`classical_central_vi.py` 591-627); the number `1 / R` replaces the parameter `rho` (line 605) -/
def admmConsensusProof (mu : ℚ) (L : Option ℚ) (R : ℚ) : Build Energies := do
  let rho : ℚ := 1 / R
  let f ← define mu L
  let g ← define mu L
  let func ← fn (f + g)
  let (x_star, y_star, _) ← stationary func
  let (y1_star, _) ← oracle f x_star
  let y2_star ← pt (y_star - y1_star)
  let z1 ← initial
  let y1_1 ← initial
  let y2_1 ← pt (-y1_1)
  let (x1_2, _, _) ← prox (z1 - (1 / rho) * y1_1) f (Sym.num (1 / rho))
  let (x2_2, _, _) ← prox (z1 - (1 / rho) * y2_1) g (Sym.num (1 / rho))
  let z2 ← pt ((x1_2 + x2_2) / (2 : ℚ))
  let y1_2 ← pt (y1_1 - (pH * rho) * (z2 - x1_2))
  let y2_2 ← pt (y2_1 - (pH * rho) * (z2 - x2_2))
  let E_1 ← ex ((1 / rho) * (y1_1 + y1_star).sq + (1 / rho) * (y2_1 + y2_star).sq + (2 * rho) * (z1 - x_star).sq)
  let E_2 ← ex ((1 / rho) * (y1_2 + y1_star).sq + (1 / rho) * (y2_2 + y2_star).sq + (2 * rho) * (z2 - x_star).sq)
  let Delta_1 ← ex (pEta * (rho * (x1_2 - z2).sq + rho * (x2_2 - z2).sq) + (rho * rho) * (z1 - z2).sq)
  finishMetric E_1 E_2 Delta_1

end Verif.Build
