import Verif.Model.Build

/-!
# The first program of the documentation (`README.md` 78-130, `examples/hello_world.ipynb`)
-/

namespace Verif.Build

/-- `def_function(problem, mu, L_smooth)` (`function.py` 278-287): the same choice of the class as `define_function` (`utils.py` 239-248) -/
def defFunction (mu : ℚ) (L : Option ℚ) : Build FE := define mu L

/-- the program of `README.md` 80-128, up to the call `problem.solve()`; there `mu = 0`, `M = np.inf` (`none`), `R = 1`, `C = 10` -/
def helloWorld (mu : ℚ) (M : Option ℚ) (R C : ℚ) : Build Unit := do
  let f ← defFunction mu M
  let (x_star, y_star, _) ← stationary f
  let z_1 ← initial
  let e2_1 ← initial
  let (x_1, _, _) ← prox z_1 f (R / 2 : ℚ)
  let y_1 ← pt ((2 / R : ℚ) * (z_1 - x_1))
  let _ ← pt ((e2_1 - R * y_1) / (2 : ℚ))
  let v_C1_1 ← pt (e2_1 / (2 : ℚ) - z_1)
  let v_C2_1 := e2_1
  let e2_2 ← pt (e2_1 - (pH / (2 * R * C)) * (R * y_1 + (3 : ℚ) * e2_1))
  let z_2 ← pt (z_1 - (pH / (4 * R * C)) * ((5 * R) * y_1 + (3 : ℚ) * e2_1))
  let (x_2, _, _) ← prox z_2 f (R / 2 : ℚ)
  let _ ← pt ((2 / R : ℚ) * (z_2 - x_2))
  let v_C1_2 ← pt (e2_2 / (2 : ℚ) - z_2)
  let v_C2_2 := e2_2
  let E_1 ← ex ((C / 2) * (v_C1_1 + x_star).sq + (C / 2) * v_C2_1.sq)
  let E_2 ← ex ((C / 2) * (v_C1_2 + x_star).sq + (C / 2) * v_C2_2.sq)
  let Delta_1 ← ex ((pEta * (x_1 - x_star)) * (y_1 - y_star))
  metric (E_2 - (E_1 - Delta_1))

end Verif.Build
