import Verif.Model.Circuits

/-!
# The circuits of `classical_decentral_vi.py` and `new_algorithms_vi.py`

As in `Model/Circuits`: ciropt mode, call by call in the order of the source.
-/

namespace Verif.Build

/-- `decentralized_gradient_descent_line3` (`classical_decentral_vi.py` 14-63) -/
def dgdLine3 (mu : ℚ) (L : Option ℚ) (R Cap : ℚ) : Build Energies := do
  let f1 ← define mu L
  let f2 ← define mu L
  let f3 ← define mu L
  let x2_star ← initial
  let (y2_star, _) ← oracle f2 x2_star
  let (x1_star, y1_star, _) ← prox x2_star f1 R
  let (x3_star, y3_star, _) ← prox x2_star f3 R
  let (x2_star_v2, _, _) ← prox ((x1_star + x3_star) / (2 : ℚ)) f2 (Sym.num (R / 2))
  equality (x2_star - x2_star_v2).sq
  let x1_1 ← initial
  let (y1_1, _) ← oracle f1 x1_1
  let x2_1 ← initial
  let (y2_1, _) ← oracle f2 x2_1
  let x3_1 ← initial
  let (y3_1, _) ← oracle f3 x3_1
  let x1_2 ← pt (x1_1 - (pH / Cap) * (y1_1 + (x1_1 - x2_1) / R))
  let (y1_2, _) ← oracle f1 x1_2
  let x2_2 ← pt (x2_1 - (pH / Cap) * (y2_1 + (x2_1 - x1_1 + x2_1 - x3_1) / R))
  let (y2_2, _) ← oracle f2 x2_2
  let x3_2 ← pt (x3_1 - (pH / Cap) * (y3_1 + (x3_1 - x2_1) / R))
  let (y3_2, _) ← oracle f3 x3_2
  let E_1 ← ex ((Cap / 2) * ((x1_1 - x1_star).sq + (x2_1 - x2_star).sq + (x3_1 - x3_star).sq))
  let E_2 ← ex ((Cap / 2) * ((x1_2 - x1_star).sq + (x2_2 - x2_star).sq + (x3_2 - x3_star).sq))
  let Delta_2 ← ex ((pRho * (1 / R)) * ((x1_2 - x2_2 - (x1_star - x2_star)).sq + (x3_2 - x2_2 - (x3_star - x2_star)).sq) +
    pEta * ((x1_2 - x1_star) * (y1_2 - y1_star) + (x2_2 - x2_star) * (y2_2 - y2_star) + (x3_2 - x3_star) * (y3_2 - y3_star)))
  finishMetric E_1 E_2 Delta_2

/-- `diffusion_line3` (`classical_decentral_vi.py` 66-131) -/
def diffusionLine3 (mu : ℚ) (L : Option ℚ) (R Cap : ℚ) : Build Energies := do
  let f1 ← define mu L
  let f2 ← define mu L
  let f3 ← define mu L
  let x1_star ← initial
  let x2_star ← initial
  let x3_star ← initial
  let (y1_star, _) ← oracle f1 x1_star
  let (y2_star, _) ← oracle f2 x2_star
  let (y3_star, _) ← oracle f3 x3_star
  let e1_star ← pt (x1_star - R * y1_star)
  let e2_star ← pt (x2_star - R * y2_star)
  let e3_star ← pt (x3_star - R * y3_star)
  equality ((e1_star - (2 : ℚ) * e2_star + e3_star) / (3 * R) - y2_star).sq
  equality ((e2_star - e1_star) / (3 * R) - y1_star).sq
  equality ((e2_star - e3_star) / (3 * R) - y3_star).sq
  let x1_1 ← initial
  let (y1_1, _) ← oracle f1 x1_1
  let x2_1 ← initial
  let (y2_1, _) ← oracle f2 x2_1
  let x3_1 ← initial
  let (y3_1, _) ← oracle f3 x3_1
  let e1_1 ← pt (x1_1 - R * y1_1)
  let e2_1 ← pt (x2_1 - R * y2_1)
  let e3_1 ← pt (x3_1 - R * y3_1)
  let x1_2 ← pt (x1_1 - (pH / Cap) * (y1_1 + (1 / (3 * R)) * ((x1_1 - R * y1_1) - (x2_1 - R * y2_1))))
  let (y1_2, _) ← oracle f1 x1_2
  let x2_2 ← pt (x2_1 - (pH / Cap) * (y2_1 + (1 / (3 * R)) * ((2 : ℚ) * (x2_1 - R * y2_1) - (x1_1 - R * y1_1) - (x3_1 - R * y3_1))))
  let (y2_2, _) ← oracle f2 x2_2
  let x3_2 ← pt (x3_1 - (pH / Cap) * (y3_1 + (1 / (3 * R)) * ((x3_1 - R * y3_1) - (x2_1 - R * y2_1))))
  let (y3_2, _) ← oracle f3 x3_2
  let e1_2 ← pt (x1_2 - R * y1_2)
  let e2_2 ← pt (x2_2 - R * y2_2)
  let e3_2 ← pt (x3_2 - R * y3_2)
  let E_1 ← ex ((Cap / 2) * ((e1_1 - e1_star).sq + (e2_1 - e2_star).sq + (e3_1 - e3_star).sq))
  let E_2 ← ex ((Cap / 2) * ((e1_2 - e1_star).sq + (e2_2 - e2_star).sq + (e3_2 - e3_star).sq))
  let Delta_1 ← ex ((pRho * (1 / (3 * R))) * ((e1_1 - e2_1 - (e1_star - e2_star)).sq + (e3_1 - e2_1 - (e3_star - e2_star)).sq) +
    (pEta * (invSmooth L - R)) * ((y1_1 - y1_star).sq + (y2_1 - y2_star).sq + (y3_1 - y3_star).sq))
  finishMetric E_1 E_2 Delta_1

/-- `pg_extra_l3` (`classical_decentral_vi.py` 134-216); `W i j` is `W[i][j]` -/
def pgExtraLine3 (mu : ℚ) (Lh Lf : Option ℚ) (R : ℚ) (W : ℕ → ℕ → ℚ) : Build Energies := do
  let f1 ← define mu Lf
  let f2 ← define mu Lf
  let f3 ← define mu Lf
  let h1 ← define mu Lh
  let h2 ← define mu Lh
  let h3 ← define mu Lh
  let (x_star, y_star, _) ← stationary (f1 + f2 + f3 + h1 + h2 + h3)
  let (y_f1_star, _) ← oracle f1 x_star
  let (y_f2_star, _) ← oracle f2 x_star
  let (y_f3_star, _) ← oracle f3 x_star
  let (y_h1_star, _) ← oracle h1 x_star
  let (y_h2_star, _) ← oracle h2 x_star
  let (y_h3_star, _) ← oracle h3 x_star
  let i_L_12_star ← pt (-y_f1_star - y_h1_star)
  let i_L_23_star ← pt (y_f3_star + y_h3_star)
  equality (y_f1_star + y_f2_star + y_f3_star + y_h1_star + y_h2_star + y_h3_star - y_star).sq
  let x1_1 ← initial
  let x2_1 ← initial
  let x3_1 ← initial
  let _ ← oracle f1 x1_1
  let _ ← oracle f2 x2_1
  let _ ← oracle f3 x3_1
  let (y_h1_1, _) ← oracle h1 x1_1
  let (y_h2_1, _) ← oracle h2 x2_1
  let (y_h3_1, _) ← oracle h3 x3_1
  let i_L_12_1 ← initial
  let i_L_23_1 ← initial
  let e1_1 ← pt (W 0 0 * x1_1 + W 0 1 * x2_1 + W 0 2 * x3_1 - R * y_h1_1 - R * i_L_12_1)
  let e2_1 ← pt (W 1 0 * x1_1 + W 1 1 * x2_1 + W 1 2 * x3_1 - R * y_h2_1 + R * i_L_12_1 - R * i_L_23_1)
  let e3_1 ← pt (W 2 0 * x1_1 + W 2 1 * x2_1 + W 2 2 * x3_1 - R * y_h3_1 + R * i_L_23_1)
  let (x1_2, y_f1_2, _) ← prox e1_1 f1 R
  let (x2_2, y_f2_2, _) ← prox e2_1 f2 R
  let (x3_2, y_f3_2, _) ← prox e3_1 f3 R
  let R_12 : ℚ := R / W 0 1
  let R_23 : ℚ := R / W 1 2
  let i_L_12_2 ← pt (i_L_12_1 + (pH / R_12) * (x1_1 - x2_1))
  let i_L_23_2 ← pt (i_L_23_1 + (pH / R_23) * (x2_1 - x3_1))
  let i_L_12_3 ← pt (i_L_12_2 + (pH / R_12) * (x1_2 - x2_2))
  let i_L_23_3 ← pt (i_L_23_2 + (pH / R_23) * (x2_2 - x3_2))
  let E_1 ← ex (pGamma * ((x1_1 - x_star).sq + (x2_1 - x_star).sq + (x3_1 - x_star).sq) +
    (R_12 / 2) * (i_L_12_2 - i_L_12_star).sq + (R_23 / 2) * (i_L_23_2 - i_L_23_star).sq)
  let E_2 ← ex (pGamma * ((x1_2 - x_star).sq + (x2_2 - x_star).sq + (x3_2 - x_star).sq) +
    (R_12 / 2) * (i_L_12_3 - i_L_12_star).sq + (R_23 / 2) * (i_L_23_3 - i_L_23_star).sq)
  let Delta_2 ← ex (pEta * ((y_f1_2 - y_f1_star) * (x1_2 - x_star) + (y_f2_2 - y_f2_star) * (x2_2 - x_star) +
      (y_f3_2 - y_f3_star) * (x3_2 - x_star)) +
    pRho * ((y_h1_1 - y_h1_star) * (x1_1 - x_star) + (y_h2_1 - y_h2_star) * (x2_1 - x_star) +
      (y_h3_1 - y_h3_star) * (x3_1 - x_star)))
  finishMetric E_1 E_2 Delta_2

/-- `decentralized_admm_consensus_l3` (`classical_decentral_vi.py` 219-299) -/
def dadmmLine3 (mu : ℚ) (L : Option ℚ) (R Ind : ℚ) : Build Energies := do
  let f1 ← define mu L
  let f2 ← define mu L
  let f3 ← define mu L
  let (x_star, y_star, _) ← stationary (f1 + f2 + f3)
  let (y1_star, f1_star) ← oracle f1 x_star
  let (y2_star, f2_star) ← oracle f2 x_star
  let (y3_star, f3_star) ← oracle f3 x_star
  let y2_21_star ← initial
  let y2_23_star ← pt (y2_star - y2_21_star)
  equality (y1_star + y2_star + y3_star - y_star).sq
  equality (y2_21_star + y1_star).sq
  equality (y2_23_star + y3_star).sq
  let e_12_1 ← initial
  let e_23_1 ← initial
  let i_L_12n1_1 ← initial
  let i_L_23n2_1 ← initial
  let (x1_1p5, _, _) ← prox (R * i_L_12n1_1 + e_12_1) f1 R
  let (x2_1p5, _, _) ← prox ((((-R) * i_L_12n1_1 + e_12_1) + (R * i_L_23n2_1 + e_23_1)) / (2 : ℚ)) f2 (Sym.num (R / 2))
  let (x3_1p5, _, _) ← prox ((-R) * i_L_23n2_1 + e_23_1) f3 R
  let e_12_1p5 ← pt ((x1_1p5 + x2_1p5) / (2 : ℚ))
  let e_23_1p5 ← pt ((x2_1p5 + x3_1p5) / (2 : ℚ))
  let i_L_12n1_1p5 ← pt (i_L_12n1_1 + (pAlpha * pH / Ind) * (e_12_1p5 - x1_1p5))
  let i_L_23n2_1p5 ← pt (i_L_23n2_1 + (pAlpha * pH / Ind) * (e_23_1p5 - x2_1p5))
  let (x1_2, _, f1_2) ← prox (R * i_L_12n1_1p5 + e_12_1p5) f1 R
  let (x2_2, _, f2_2) ← prox ((((-R) * i_L_12n1_1p5 + e_12_1p5) + (R * i_L_23n2_1p5 + e_23_1p5)) / (2 : ℚ)) f2 (Sym.num (R / 2))
  let (x3_2, _, f3_2) ← prox ((-R) * i_L_23n2_1p5 + e_23_1p5) f3 R
  let e_12_2 ← pt ((x1_2 + x2_2) / (2 : ℚ))
  let e_23_2 ← pt ((x2_2 + x3_2) / (2 : ℚ))
  let i_L_12n1_2 ← pt (i_L_12n1_1 + (pBeta * pH / Ind) * (e_12_1p5 - x1_1p5) + ((1 - pBeta) * pH / Ind) * (e_12_2 - x1_2))
  let i_L_23n2_2 ← pt (i_L_23n2_1 + (pBeta * pH / Ind) * (e_23_1p5 - x2_1p5) + ((1 - pBeta) * pH / Ind) * (e_23_2 - x2_2))
  let E_1 ← ex (pGamma * (e_12_1 - x_star).sq + pGamma * (e_23_1 - x_star).sq + (Ind / 2) * (i_L_12n1_1 - y1_star).sq +
    (Ind / 2) * (-i_L_12n1_1 - y2_21_star).sq + (Ind / 2) * (i_L_23n2_1 - y2_23_star).sq + (Ind / 2) * (-i_L_23n2_1 - y3_star).sq)
  let E_2 ← ex (pGamma * (e_12_2 - x_star).sq + pGamma * (e_23_2 - x_star).sq + (Ind / 2) * (i_L_12n1_2 - y1_star).sq +
    (Ind / 2) * (-i_L_12n1_2 - y2_21_star).sq + (Ind / 2) * (i_L_23n2_2 - y2_23_star).sq + (Ind / 2) * (-i_L_23n2_2 - y3_star).sq)
  let Delta_2 ← ex ((pRho * (1 / R)) * ((e_12_2 - x1_2).sq + (e_12_2 - x2_2).sq + (e_23_2 - x2_2).sq + (e_23_2 - x3_2).sq) +
    pEta * (f1_2 - f1_star - y1_star * (x1_2 - x_star) + f2_2 - f2_star - y2_star * (x2_2 - x_star) +
      f3_2 - f3_star - y3_star * (x3_2 - x_star)))
  finishMetric E_1 E_2 Delta_2

/-- `decentralized_admm_cycle4` (`classical_decentral_vi.py` 302-386) -/
def dadmmCycle4 (mu : ℚ) (L : Option ℚ) (R Ind : ℚ) : Build Energies := do
  let f1 ← define mu L
  let f2 ← define mu L
  let f3 ← define mu L
  let f4 ← define mu L
  let (x_star, y_star, _) ← stationary (f1 + f2 + f3 + f4)
  let (y1_star, f1_star) ← oracle f1 x_star
  let (y2_star, f2_star) ← oracle f2 x_star
  let (y3_star, f3_star) ← oracle f3 x_star
  let (y4_star, f4_star) ← oracle f4 x_star
  equality (y1_star + y2_star + y3_star + y4_star - y_star).sq
  let y1_12_star ← initial
  let y1_14_star ← pt (y1_star - y1_12_star)
  let y2_23_star ← pt (y2_star + y1_12_star)
  let y3_34_star ← pt (y3_star + y2_23_star)
  equality (y1_14_star + y3_34_star + y4_star).sq
  let e_12_1 ← initial
  let e_23_1 ← initial
  let e_34_1 ← initial
  let e_41_1 ← initial
  let i_L_12_1 ← initial
  let i_L_23_1 ← initial
  let i_L_34_1 ← initial
  let i_L_41_1 ← initial
  let (x1_2, _, f1_2) ← prox ((1 / 2 : ℚ) * ((R * i_L_12_1 + e_12_1) + ((-R) * i_L_41_1 + e_41_1))) f1 (Sym.num (R / 2))
  let (x2_2, _, f2_2) ← prox ((1 / 2 : ℚ) * (((-R) * i_L_12_1 + e_12_1) + (R * i_L_23_1 + e_23_1))) f2 (Sym.num (R / 2))
  let (x3_2, _, f3_2) ← prox ((1 / 2 : ℚ) * (((-R) * i_L_23_1 + e_23_1) + (R * i_L_34_1 + e_34_1))) f3 (Sym.num (R / 2))
  let (x4_2, _, f4_2) ← prox ((1 / 2 : ℚ) * ((R * i_L_41_1 + e_41_1) + ((-R) * i_L_34_1 + e_34_1))) f4 (Sym.num (R / 2))
  let e_12_2 ← pt ((x1_2 + x2_2) / (2 : ℚ))
  let e_23_2 ← pt ((x2_2 + x3_2) / (2 : ℚ))
  let e_34_2 ← pt ((x3_2 + x4_2) / (2 : ℚ))
  let e_41_2 ← pt ((x4_2 + x1_2) / (2 : ℚ))
  let i_L_12_2 ← pt (i_L_12_1 + (pH / Ind) * (e_12_2 - x1_2))
  let i_L_23_2 ← pt (i_L_23_1 + (pH / Ind) * (e_23_2 - x2_2))
  let i_L_34_2 ← pt (i_L_34_1 + (pH / Ind) * (e_34_2 - x3_2))
  let i_L_41_2 ← pt (i_L_41_1 + (pH / Ind) * (e_41_2 - x4_2))
  let E_1 ← ex (pGamma * ((e_12_1 - x_star).sq + (e_23_1 - x_star).sq + (e_34_1 - x_star).sq + (e_41_1 - x_star).sq) +
    Ind * (i_L_12_1 - y1_12_star).sq + Ind * (i_L_23_1 - y2_23_star).sq + Ind * (i_L_34_1 - y3_34_star).sq +
    Ind * (i_L_41_1 + y1_14_star).sq)
  let E_2 ← ex (pGamma * ((e_12_2 - x_star).sq + (e_23_2 - x_star).sq + (e_34_2 - x_star).sq + (e_41_2 - x_star).sq) +
    Ind * (i_L_12_2 - y1_12_star).sq + Ind * (i_L_23_2 - y2_23_star).sq + Ind * (i_L_34_2 - y3_34_star).sq +
    Ind * (i_L_41_2 + y1_14_star).sq)
  let Delta_2 ← ex ((pRho * (2 / R)) * ((e_12_2 - x1_2).sq + (e_23_2 - x2_2).sq + (e_34_2 - x4_2).sq + (e_41_2 - x1_2).sq) +
    pEta * (f1_2 - f1_star - y1_star * (x1_2 - x_star) + f2_2 - f2_star - y2_star * (x2_2 - x_star) +
      f3_2 - f3_star - y3_star * (x3_2 - x_star) + f4_2 - f4_star - y4_star * (x4_2 - x_star)))
  finishMetric E_1 E_2 Delta_2

/-- `decentralized_admm_graph6` (`classical_decentral_vi.py` 389-501) -/
def dadmmGraph6 (mu : ℚ) (L : Option ℚ) (R Ind : ℚ) : Build Energies := do
  let f1 ← define mu L
  let f2 ← define mu L
  let f3 ← define mu L
  let f4 ← define mu L
  let f5 ← define mu L
  let f6 ← define mu L
  let (x_star, y_star, _) ← stationary (f1 + f2 + f3 + f4 + f5 + f6)
  let (y1_star, f1_star) ← oracle f1 x_star
  let (y2_star, f2_star) ← oracle f2 x_star
  let (y3_star, f3_star) ← oracle f3 x_star
  let (y4_star, f4_star) ← oracle f4 x_star
  let (y5_star, f5_star) ← oracle f5 x_star
  let (y6_star, f6_star) ← oracle f6 x_star
  equality (y1_star + y2_star + y3_star + y4_star + y5_star + y6_star - y_star).sq
  let y1_12_star ← initial
  let y1_13_star ← pt (y1_star - y1_12_star)
  let y2_23_star ← initial
  let y2_24_star ← pt (y2_star + y1_12_star - y2_23_star)
  let y3_34_star ← pt (y3_star + y1_13_star + y2_23_star)
  equality (y2_24_star + y3_34_star + y5_star + y6_star + y4_star).sq
  let e_12_1 ← initial
  let e_13_1 ← initial
  let e_23_1 ← initial
  let e_24_1 ← initial
  let e_34_1 ← initial
  let e_45_1 ← initial
  let e_46_1 ← initial
  let i_L_12_1 ← initial
  let i_L_13_1 ← initial
  let i_L_23_1 ← initial
  let i_L_24_1 ← initial
  let i_L_34_1 ← initial
  let i_L_45_1 ← initial
  let i_L_46_1 ← initial
  let (x1_2, _, f1_2) ← prox ((1 / 2 : ℚ) * ((R * i_L_12_1 + e_12_1) + (R * i_L_13_1 + e_13_1))) f1 (Sym.num (R / 2))
  let (x2_2, _, f2_2) ← prox ((1 / 3 : ℚ) * (((-R) * i_L_12_1 + e_12_1) + (R * i_L_23_1 + e_23_1) + (R * i_L_24_1 + e_24_1))) f2
    (Sym.num (R / 3))
  let (x3_2, _, f3_2) ← prox ((1 / 3 : ℚ) * (((-R) * i_L_13_1 + e_13_1) + ((-R) * i_L_23_1 + e_23_1) + (R * i_L_34_1 + e_34_1))) f3
    (Sym.num (R / 3))
  let (x4_2, _, f4_2) ← prox ((1 / 4 : ℚ) * (((-R) * i_L_24_1 + e_24_1) + ((-R) * i_L_34_1 + e_34_1) + (R * i_L_45_1 + e_45_1) +
    (R * i_L_46_1 + e_46_1))) f4 (Sym.num (R / 4))
  let (x5_2, _, f5_2) ← prox ((-R) * i_L_45_1 + e_45_1) f5 R
  let (x6_2, _, f6_2) ← prox ((-R) * i_L_46_1 + e_46_1) f6 R
  let e_12_2 ← pt ((x1_2 + x2_2) / (2 : ℚ))
  let e_13_2 ← pt ((x1_2 + x3_2) / (2 : ℚ))
  let e_23_2 ← pt ((x2_2 + x3_2) / (2 : ℚ))
  let e_24_2 ← pt ((x2_2 + x4_2) / (2 : ℚ))
  let e_34_2 ← pt ((x3_2 + x4_2) / (2 : ℚ))
  let e_45_2 ← pt ((x4_2 + x5_2) / (2 : ℚ))
  let e_46_2 ← pt ((x4_2 + x6_2) / (2 : ℚ))
  let i_L_12_2 ← pt (i_L_12_1 + (pH / Ind) * (e_12_2 - x1_2))
  let i_L_13_2 ← pt (i_L_13_1 + (pH / Ind) * (e_13_2 - x1_2))
  let i_L_23_2 ← pt (i_L_23_1 + (pH / Ind) * (e_23_2 - x2_2))
  let i_L_24_2 ← pt (i_L_24_1 + (pH / Ind) * (e_24_2 - x2_2))
  let i_L_34_2 ← pt (i_L_34_1 + (pH / Ind) * (e_34_2 - x3_2))
  let i_L_45_2 ← pt (i_L_45_1 + (pH / Ind) * (e_45_2 - x4_2))
  let i_L_46_2 ← pt (i_L_46_1 + (pH / Ind) * (e_46_2 - x4_2))
  let E_1 ← ex (pGamma * ((e_12_1 - x_star).sq + (e_13_1 - x_star).sq + (e_23_1 - x_star).sq + (e_24_1 - x_star).sq +
      (e_34_1 - x_star).sq + (e_45_1 - x_star).sq + (e_46_1 - x_star).sq) +
    Ind * (i_L_12_1 - y1_12_star).sq + Ind * (i_L_13_1 - y1_13_star).sq + Ind * (i_L_23_1 - y2_23_star).sq +
    Ind * (i_L_24_1 - y2_24_star).sq + Ind * (i_L_34_1 - y3_34_star).sq + Ind * (i_L_45_1 + y5_star).sq +
    Ind * (i_L_46_1 + y6_star).sq)
  let E_2 ← ex (pGamma * ((e_12_2 - x_star).sq + (e_13_2 - x_star).sq + (e_23_2 - x_star).sq + (e_24_2 - x_star).sq +
      (e_34_2 - x_star).sq + (e_45_2 - x_star).sq + (e_46_2 - x_star).sq) +
    Ind * (i_L_12_2 - y1_12_star).sq + Ind * (i_L_13_2 - y1_13_star).sq + Ind * (i_L_23_2 - y2_23_star).sq +
    Ind * (i_L_24_2 - y2_24_star).sq + Ind * (i_L_34_2 - y3_34_star).sq + Ind * (i_L_45_2 + y5_star).sq +
    Ind * (i_L_46_2 + y6_star).sq)
  let Delta_2 ← ex ((pRho * (2 / R)) * ((e_12_2 - x1_2).sq + (e_13_2 - x3_2).sq + (e_23_2 - x2_2).sq + (e_24_2 - x2_2).sq +
      (e_34_2 - x4_2).sq + (e_45_2 - x5_2).sq + (e_46_2 - x6_2).sq) +
    pEta * (f1_2 - f1_star - y1_star * (x1_2 - x_star) + f2_2 - f2_star - y2_star * (x2_2 - x_star) +
      f3_2 - f3_star - y3_star * (x3_2 - x_star) + f4_2 - f4_star - y4_star * (x4_2 - x_star) +
      f5_2 - f5_star - y5_star * (x5_2 - x_star) + f6_2 - f6_star - y6_star * (x6_2 - x_star)))
  finishMetric E_1 E_2 Delta_2

/-- `dadmm_C_graph6` (`new_algorithms_vi.py` 16-138); `mu0`, `L0` are `mus[0]`, `L_smooths[0]`, and `mu1`, `L1` the entries 1 -/
def dadmmCGraph6 (mu0 mu1 : ℚ) (L0 L1 : Option ℚ) (R Cap Ind : ℚ) : Build Energies := do
  let f1 ← define mu0 L0
  let f2 ← define mu0 L0
  let f3 ← define mu0 L0
  let f4 ← define mu1 L1
  let f5 ← define mu1 L1
  let f6 ← define mu0 L0
  let (x_star, y_star, _) ← stationary (f1 + f2 + f3 + f4 + f5 + f6)
  let (y1_star, f1_star) ← oracle f1 x_star
  let (y2_star, f2_star) ← oracle f2 x_star
  let (y3_star, f3_star) ← oracle f3 x_star
  let (y4_star, f4_star) ← oracle f4 x_star
  let (y5_star, f5_star) ← oracle f5 x_star
  let (y6_star, f6_star) ← oracle f6 x_star
  equality (y1_star + y2_star + y3_star + y4_star + y5_star + y6_star - y_star).sq
  let y1_12_star ← initial
  let y1_13_star ← pt (y1_star - y1_12_star)
  let y2_23_star ← initial
  let y2_24_star ← pt (y2_star + y1_12_star - y2_23_star)
  let y3_34_star ← pt (y3_star + y1_13_star + y2_23_star)
  equality (y2_24_star + y3_34_star + y5_star + y6_star + y4_star).sq
  let e_12_1 ← initial
  let e_13_1 ← initial
  let e_23_1 ← initial
  let e_24_1 ← initial
  let e_34_1 ← initial
  let e_45_1 ← initial
  let e_46_1 ← initial
  let i_L_12_1 ← initial
  let i_L_13_1 ← initial
  let i_L_23_1 ← initial
  let i_L_24_1 ← initial
  let i_L_34_1 ← initial
  let i_L_45_1 ← initial
  let i_L_54_1 ← initial
  let i_L_46_1 ← initial
  let (x1_2, _, f1_2) ← prox ((1 / 2 : ℚ) * ((R * i_L_12_1 + e_12_1) + (R * i_L_13_1 + e_13_1))) f1 (Sym.num (R / 2))
  let (x2_2, _, f2_2) ← prox ((1 / 3 : ℚ) * (((-R) * i_L_12_1 + e_12_1) + (R * i_L_23_1 + e_23_1) + (R * i_L_24_1 + e_24_1))) f2
    (Sym.num (R / 3))
  let (x3_2, _, f3_2) ← prox ((1 / 3 : ℚ) * (((-R) * i_L_13_1 + e_13_1) + ((-R) * i_L_23_1 + e_23_1) + (R * i_L_34_1 + e_34_1))) f3
    (Sym.num (R / 3))
  let (x4_2, _, f4_2) ← prox ((1 / 4 : ℚ) * (((-R) * i_L_24_1 + e_24_1) + ((-R) * i_L_34_1 + e_34_1) + (R * i_L_45_1 + e_45_1) +
    (R * i_L_46_1 + e_46_1))) f4 (Sym.num (R / 4))
  let (x5_2, _, f5_2) ← prox (R * i_L_54_1 + e_45_1) f5 R
  let (x6_2, _, f6_2) ← prox ((-R) * i_L_46_1 + e_46_1) f6 R
  let e_12_2 ← pt ((x1_2 + x2_2) / (2 : ℚ))
  let e_13_2 ← pt ((x1_2 + x3_2) / (2 : ℚ))
  let e_23_2 ← pt ((x2_2 + x3_2) / (2 : ℚ))
  let e_24_2 ← pt ((x2_2 + x4_2) / (2 : ℚ))
  let e_34_2 ← pt ((x3_2 + x4_2) / (2 : ℚ))
  let e_45_2 ← pt (e_45_1 - (pH / Cap) * (i_L_45_1 + i_L_54_1 + ((2 : ℚ) * e_45_1 - x4_2 - x5_2) / R))
  let e_46_2 ← pt ((x4_2 + x6_2) / (2 : ℚ))
  let i_L_12_2 ← pt (i_L_12_1 + (pH / Ind) * (e_12_2 - x1_2))
  let i_L_13_2 ← pt (i_L_13_1 + (pH / Ind) * (e_13_2 - x1_2))
  let i_L_23_2 ← pt (i_L_23_1 + (pH / Ind) * (e_23_2 - x2_2))
  let i_L_24_2 ← pt (i_L_24_1 + (pH / Ind) * (e_24_2 - x2_2))
  let i_L_34_2 ← pt (i_L_34_1 + (pH / Ind) * (e_34_2 - x3_2))
  let i_L_45_2 ← pt (i_L_45_1 + (pH / Ind) * (e_45_2 - x4_2))
  let i_L_54_2 ← pt (i_L_54_1 + (pH / Ind) * (e_45_2 - x5_2))
  let i_L_46_2 ← pt (i_L_46_1 + (pH / Ind) * (e_46_2 - x4_2))
  let E_1 ← ex (pGamma * ((e_12_1 - x_star).sq + (e_13_1 - x_star).sq + (e_23_1 - x_star).sq + (e_24_1 - x_star).sq +
      (e_34_1 - x_star).sq + (e_46_1 - x_star).sq) +
    Ind * (i_L_12_1 - y1_12_star).sq + Ind * (i_L_13_1 - y1_13_star).sq + Ind * (i_L_23_1 - y2_23_star).sq +
    Ind * (i_L_24_1 - y2_24_star).sq + Ind * (i_L_34_1 - y3_34_star).sq +
    (Ind / 2) * (i_L_45_1 + y5_star).sq + (Ind / 2) * (i_L_54_1 - y5_star).sq +
    Ind * (i_L_46_1 + y6_star).sq + (Cap / 2) * (e_45_1 - x_star).sq)
  let E_2 ← ex (pGamma * ((e_12_2 - x_star).sq + (e_13_2 - x_star).sq + (e_23_2 - x_star).sq + (e_24_2 - x_star).sq +
      (e_34_2 - x_star).sq + (e_46_2 - x_star).sq) +
    Ind * (i_L_12_2 - y1_12_star).sq + Ind * (i_L_13_2 - y1_13_star).sq + Ind * (i_L_23_2 - y2_23_star).sq +
    Ind * (i_L_24_2 - y2_24_star).sq + Ind * (i_L_34_2 - y3_34_star).sq +
    (Ind / 2) * (i_L_45_2 + y5_star).sq + (Ind / 2) * (i_L_54_2 - y5_star).sq +
    Ind * (i_L_46_2 + y6_star).sq + (Cap / 2) * (e_45_2 - x_star).sq)
  let Delta_2 ← ex (pRho * ((2 / R) * ((e_12_2 - x1_2).sq + (e_13_2 - x3_2).sq + (e_23_2 - x2_2).sq + (e_24_2 - x2_2).sq +
      (e_34_2 - x4_2).sq + (e_46_2 - x6_2).sq) + (1 / R) * ((e_45_2 - x5_2).sq + (e_45_2 - x4_2).sq)) +
    pEta * (f1_2 - f1_star - y1_star * (x1_2 - x_star) + f2_2 - f2_star - y2_star * (x2_2 - x_star) +
      f3_2 - f3_star - y3_star * (x3_2 - x_star) + f4_2 - f4_star - y4_star * (x4_2 - x_star) +
      f5_2 - f5_star - y5_star * (x5_2 - x_star) + f6_2 - f6_star - y6_star * (x6_2 - x_star)))
  finishMetric E_1 E_2 Delta_2

/-- `example_fC3RC_circuit` (`new_algorithms_vi.py` 144-188) -/
def exampleFC3RC (mu : ℚ) (L : Option ℚ) (Cap R : ℚ) : Build Energies := do
  let func ← define mu L
  let (x_star, y_star, _) ← stationary func
  let z_1 ← initial
  let e2_1 ← initial
  let (x_1, _, _) ← prox z_1 func (Sym.num (R / 2))
  let y_1 ← pt ((2 / R) * (z_1 - x_1))
  let e2_1p5 ← pt (e2_1 - (pAlpha * pH / (2 * R * Cap)) * (R * y_1 + (3 : ℚ) * e2_1))
  let z_1p5 ← pt (z_1 - (pAlpha * pH / (4 * R * Cap)) * ((5 * R) * y_1 + (3 : ℚ) * e2_1))
  let (x_1p5, _, _) ← prox z_1p5 func (Sym.num (R / 2))
  let y_1p5 ← pt ((2 / R) * (z_1p5 - x_1p5))
  let e2_2 ← pt (e2_1 - (pBeta * pH / (2 * R * Cap)) * (R * y_1 + (3 : ℚ) * e2_1) -
    ((1 - pBeta) * pH / (2 * R * Cap)) * (R * y_1p5 + (3 : ℚ) * e2_1p5))
  let z_2 ← pt (z_1 - (pBeta * pH / (4 * R * Cap)) * ((5 * R) * y_1 + (3 : ℚ) * e2_1) -
    ((1 - pBeta) * pH / (4 * R * Cap)) * ((5 * R) * y_1p5 + (3 : ℚ) * e2_1p5))
  let (x_2, _, _) ← prox z_2 func (Sym.num (R / 2))
  let _ ← pt ((2 / R) * (z_2 - x_2))
  let v_C1_1 ← pt (e2_1 / (2 : ℚ) - z_1)
  let v_C1_2 ← pt (e2_2 / (2 : ℚ) - z_2)
  let e1_1 ← pt ((e2_1 - R * y_1) / (2 : ℚ))
  let E_1 ← ex ((Cap / 2) * (v_C1_1 + x_star).sq + (Cap / 2) * e2_1.sq)
  let E_2 ← ex ((Cap / 2) * (v_C1_2 + x_star).sq + (Cap / 2) * e2_2.sq)
  let Delta_1 ← ex ((pEta * (x_1 - x_star)) * (y_1 - y_star) + (pRho * (1 / R)) * (e1_1.sq + (e1_1 - e2_1).sq + e2_1.sq))
  finishMetric E_1 E_2 Delta_1

end Verif.Build
