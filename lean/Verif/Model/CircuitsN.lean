import Verif.Model.Circuits

/-!
# The circuits of `classical_central_vi.py` with any number of functions

`dual_decomposition`, `primal_decomposition`, `admm_consensus`, `admm_euler_consensus` in ciropt mode.  `k` gives the number of functions:
`n_func = k + 2` (`k + 1` for `primal_decomposition`); smaller numbers make python stop with an error (`-0` has no gradient,
an unbound name), and are not modelled.
-/

namespace Verif.Build

variable {α β : Type}

/-- `for a in l: res[i] = body(a)` -/
def mapB (body : α → Build β) : List α → Build (List β)
  | [] => ret []
  | a :: l => andThen (body a) fun b => andThen (mapB body l) fun bs => ret (b :: bs)

/-- `if i == 0: z = x  else: z += x` -/
def addTo (z : Option PE) (x : PE) : Build PE := match z with
  | none => ret x
  | some z => pt (z + x)

/-- `if i == 0: z = -x  else: z -= x` -/
def subFrom (z : Option PE) (x : PE) : Build PE := match z with
  | none => pt (-x)
  | some z => pt (z - x)

/-- `z += e` for an Expression `e`, starting from the python number 0 (`none`) -/
def addEx (z : Option EE) (e : EE) : Build EE := match z with
  | none => ex (.addNum e 0)
  | some z => ex (z + e)

/-- the loop over `define_function` (`classical_central_vi.py` 250-254, 314-318, 469-473, 543-547): the functions and their sum -/
def defineSum (mu : ℚ) (L : Option ℚ) (m : ℕ) : Build (List FE × FE) := do
  let f0 ← define mu L
  loop (fun s _ => do
    let f ← define mu L
    let g ← fn (s.2 + f)
    return (s.1 ++ [f], g)) (List.range m) ([f0], f0)

/-- what the theorems speak about: inductor currents at steps 1, 1.5, 2, the points on the other side of the inductors at steps 1 and 1.5
(`xs_1`, `xs_1p5`, or the points of `triplets_1`, `triplets_1p5`), and the energies -/
structure Currents where
  i1 : List PE
  i15 : List PE
  i2 : List PE
  x1 : List PE
  x15 : List PE
  en : Energies

/-- one round of the loop of `dual_decomposition` 265-277, for the functions before the last one -/
def dualInitStep (s : (List PE × Option PE) × List PE × Option PE) (f : FE) : Build ((List PE × Option PE) × List PE × Option PE) := do
  let yi ← initial
  let last ← subFrom s.1.2 yi
  let xi ← conj yi f
  let z ← addTo s.2.2 xi
  return ((s.1.1 ++ [yi], some last), s.2.1 ++ [xi], some z)

/-- one round of the loop of `dual_decomposition` 284-288 -/
def conjStep (s : List PE × Option PE) (yf : PE × FE) : Build (List PE × Option PE) := do
  let xi ← conj yf.1 yf.2
  let z ← addTo s.2 xi
  return (s.1 ++ [xi], some z)

/-- one round of the loop of `dual_decomposition` 297-300 -/
def dualEnergyStep (Ind : ℚ) (x_star : PE) (s : Option EE × Option EE × Option EE) (a : (PE × PE) × PE × PE) :
    Build (Option EE × Option EE × Option EE) := do
  let E_1 ← addEx s.1 ((Ind / 2) * (a.1.1 - a.2.2).sq)
  let E_2 ← addEx s.2.1 ((Ind / 2) * (a.1.2 - a.2.2).sq)
  let D ← addEx s.2.2 (pEta * (((a.2.1 - x_star) * (a.1.1 - a.2.2) : EE)))
  return (some E_1, some E_2, some D)

/-- `dual_decomposition` (`classical_central_vi.py` 238-302) with `n_func = k + 2` -/
def dualDecomposition (k : ℕ) (mu : ℚ) (L : Option ℚ) (Ind : ℚ) : Build Currents := do
  let (fs, f) ← defineSum mu L (k + 1)
  let (x_star, _, _) ← stationary f
  let ys_star ← mapB (fun f => do let (y, _) ← oracle f x_star; return y) fs
  let ((iL, last), xs, z) ← loop dualInitStep fs.dropLast (([], none), [], none)
  let last := last.getD (.reg 0)
  let x_last ← conj last (fs.getLastD (.reg 0))
  let z ← addTo z x_last
  let i_L_1 := iL ++ [last]
  let xs_1 := xs ++ [x_last]
  let z_1 ← pt (z / ((k : ℚ) + 2))
  let i_L_1p5 ← mapB (fun a => pt (a.1 + (pAlpha * pH / Ind) * (z_1 - a.2))) (i_L_1.zip xs_1)
  let (xs_1p5, z) ← loop conjStep (i_L_1p5.zip fs) ([], none)
  let z_1p5 ← pt (z.getD (.reg 0) / ((k : ℚ) + 2))
  let i_L_2 ← mapB (fun a => pt (a.1 + (pBeta * pH / Ind) * (z_1 - a.2.1) + ((1 - pBeta) * pH / Ind) * (z_1p5 - a.2.2)))
    (i_L_1.zip (xs_1.zip xs_1p5))
  let (E_1, E_2, D) ← loop (dualEnergyStep Ind x_star) ((i_L_1.zip i_L_2).zip (xs_1.zip ys_star)) (none, none, none)
  let en ← finishMetric (E_1.getD (.reg 0)) (E_2.getD (.reg 0)) (D.getD (.reg 0))
  return ⟨i_L_1, i_L_1p5, i_L_2, xs_1, xs_1p5, en⟩

/-- one round of the loops of `primal_decomposition` 321-324, 327-330 -/
def gradSumStep (x : PE) (s : Option PE) (f : FE) : Build (Option PE) := do
  let (yi, _) ← oracle f x
  let z ← addTo s yi
  return some z

/-- `primal_decomposition` (`classical_central_vi.py` 303-341) with `n_func = k + 1` -/
def primalDecomposition (k : ℕ) (mu : ℚ) (L : Option ℚ) (Cap : ℚ) : Build Energies := do
  let (fs, f) ← defineSum mu L k
  let (x_star, y_star, _) ← stationary f
  let z_1 ← initial
  let s ← loop (gradSumStep z_1) fs none
  let sum_y_1 := s.getD (.reg 0)
  let z_1p5 ← pt (z_1 - (pAlpha * pH / Cap) * sum_y_1)
  let s ← loop (gradSumStep z_1p5) fs none
  let sum_y_1p5 := s.getD (.reg 0)
  let z_2 ← pt (z_1 - (pBeta * pH / Cap) * sum_y_1 - ((1 - pBeta) * pH / Cap) * sum_y_1p5)
  let E_1 ← ex ((Cap / 2) * (z_1 - x_star).sq)
  let E_2 ← ex ((Cap / 2) * (z_2 - x_star).sq)
  let Delta_1 ← ex (pEta * ((z_1 - x_star) * (sum_y_1 - y_star) : EE))
  finishMetric E_1 E_2 Delta_1

/-- one round of the loops 474-482, 548-556: gradients at the solution and their sum -/
def starStep (x_star : PE) (s : List PE × Option PE) (f : FE) : Build (List PE × Option PE) := do
  let (gi, _) ← oracle f x_star
  let z ← addTo s.2 gi
  return (s.1 ++ [gi], some z)

/-- one round of the loops 488-491, 560-563: `i_Ls_1[i] = set_initial_point()`, and the last current -/
def currentStep (s : List PE × Option PE) (_ : ℕ) : Build (List PE × Option PE) := do
  let yi ← initial
  let last ← subFrom s.2 yi
  return (s.1 ++ [yi], some last)

/-- one round of the loops 494-498, 505-509, 566-570: proximal steps and the sum of their points -/
def proxStep (R : ℚ) (e : PE) (s : List (PE × PE × EE) × Option PE) (a : PE × FE) : Build (List (PE × PE × EE) × Option PE) := do
  let t ← prox (R * a.1 + e) a.2 R
  let z ← addTo s.2 t.1
  return (s.1 ++ [t], some z)

/-- one round of the loop 519-523: `a = ((i_Ls_1[i], i_Ls_2[i]), (triplets_2[i], ys_star[i]))` -/
def admmEnergyStep (R Ind : ℚ) (x_star : PE) (s : EE × EE × EE) (a : (PE × PE) × (PE × PE × EE) × PE) : Build (EE × EE × EE) := do
  let E_1 ← ex (s.1 + (Ind / 2) * (a.1.1 - a.2.2).sq)
  let E_2 ← ex (s.2.1 + (Ind / 2) * (a.1.2 - a.2.2).sq)
  let D ← ex (s.2.2 + ((pRho * R) * (a.2.1.2.1 - a.1.2).sq + pEta * (a.2.1.2.2 - a.2.2 * (a.2.1.1 - x_star))))
  return (E_1, E_2, D)

/-- `admm_consensus` (`classical_central_vi.py` 454-526) with `n_func = k + 2` -/
def admmConsensus (k : ℕ) (mu : ℚ) (L : Option ℚ) (R Ind : ℚ) : Build Currents := do
  let (fs, f) ← defineSum mu L (k + 1)
  let (x_star, y_star, f_star) ← stationary f
  let (ys_star, s) ← loop (starStep x_star) fs ([], none)
  equality (s.getD (.reg 0) - y_star).sq
  let e_1 ← initial
  let (iL, last) ← loop currentStep (List.range (k + 1)) ([], none)
  let i_Ls_1 := iL ++ [last.getD (.reg 0)]
  let (triplets_1p5, e) ← loop (proxStep R e_1) (i_Ls_1.zip fs) ([], none)
  let e_1p5 := e.getD (.reg 0)
  let i_Ls_1p5 ← mapB (fun a => pt (a.1 + (pAlpha * pH / Ind) * (e_1p5 - a.2.1))) (i_Ls_1.zip triplets_1p5)
  let e_1p5 ← pt (e_1p5 / ((k : ℚ) + 2))
  let (triplets_2, e) ← loop (proxStep R e_1p5) (i_Ls_1p5.zip fs) ([], none)
  let e_2 ← pt (e.getD (.reg 0) / ((k : ℚ) + 2))
  let i_Ls_2 ← mapB (fun a => pt (a.1 + (pBeta * pH / Ind) * (e_1p5 - a.2.1.1) + ((1 - pBeta) * pH / Ind) * (e_2 - a.2.2.1)))
    (i_Ls_1.zip (triplets_1p5.zip triplets_2))
  let E_1 ← ex (pGamma * (e_1 - x_star).sq)
  let E_2 ← ex (pGamma * (e_2 - x_star).sq)
  let D ← ex ((-pEta) * f_star)
  let (E_1, E_2, D) ← loop (admmEnergyStep R Ind x_star) ((i_Ls_1.zip i_Ls_2).zip (triplets_2.zip ys_star)) (E_1, E_2, D)
  let en ← finishMetric E_1 E_2 D
  return ⟨i_Ls_1, i_Ls_1p5, i_Ls_2, [], triplets_1p5.map (·.1), en⟩

/-- one round of the loop 579-583 -/
def eulerEnergyStep (R Ind : ℚ) (x_star : PE) (s : (Option EE × Option EE) × EE) (a : (PE × PE) × (PE × PE × EE) × PE) :
    Build ((Option EE × Option EE) × EE) := do
  let E_1 ← addEx s.1.1 ((Ind / 2) * (a.1.1 - a.2.2).sq)
  let E_2 ← addEx s.1.2 ((Ind / 2) * (a.1.2 - a.2.2).sq)
  let D ← ex (s.2 + ((pRho * R) * (a.2.1.2.1 - a.1.1).sq + pEta * (a.2.1.2.2 - a.2.2 * (a.2.1.1 - x_star))))
  return ((some E_1, some E_2), D)

/-- `admm_euler_consensus` (`classical_central_vi.py` 529-588) with `n_func = k + 2` -/
def admmEulerConsensus (k : ℕ) (mu : ℚ) (L : Option ℚ) (R Ind : ℚ) : Build Currents := do
  let (fs, f) ← defineSum mu L (k + 1)
  let (x_star, y_star, f_star) ← stationary f
  let (ys_star, s) ← loop (starStep x_star) fs ([], none)
  equality (s.getD (.reg 0) - y_star).sq
  let (iL, last) ← loop currentStep (List.range (k + 1)) ([], none)
  let i_Ls_1 := iL ++ [last.getD (.reg 0)]
  let e_1 ← initial
  let (triplets_1, sx) ← loop (proxStep R e_1) (i_Ls_1.zip fs) ([], none)
  let i_Ls_2 ← mapB (fun a => pt (a.1 + (pH / Ind) * (e_1 - a.2.1))) (i_Ls_1.zip triplets_1)
  let sum_xi_1 ← pt (sx.getD (.reg 0) / ((k : ℚ) + 2))
  equality (e_1 - sum_xi_1).sq
  let D ← ex ((-pEta) * f_star)
  let ((E_1, E_2), D) ← loop (eulerEnergyStep R Ind x_star) ((i_Ls_1.zip i_Ls_2).zip (triplets_1.zip ys_star)) ((none, none), D)
  let en ← finishMetric (E_1.getD (.reg 0)) (E_2.getD (.reg 0)) D
  return ⟨i_Ls_1, [], i_Ls_2, triplets_1.map (·.1), [], en⟩

end Verif.Build
