import Verif.Spec.Represent
import Verif.Spec.Safe

/-!
# Executions as systems of equations

A real execution of a program assigns a vector, number or function to every register.  `MeetsAll` lists the equations and samples that
such an assignment has to satisfy, call by call, including the extra constraints.
-/

namespace Verif
open scoped InnerProductSpace

/-- a vector for every point register, a number for every expression register, weights for every function register -/
structure Vals (E : Type) where
  pt : ℕ → E
  ex : ℕ → ℝ
  fn : ℕ → (ℕ →₀ ℝ)

variable {E : Type} [NormedAddCommGroup E] [InnerProductSpace ℝ E]

noncomputable def PE.val (env : Name → ℝ) (V : Vals E) : PE → E
  | .reg i => V.pt i
  | .add a b => PE.val env V a + PE.val env V b
  | .sub a b => PE.val env V a - PE.val env V b
  | .neg a => - PE.val env V a
  | .scale s a => s.eval env • PE.val env V a
  | .div a c => (c : ℝ)⁻¹ • PE.val env V a

noncomputable def EE.val (env : Name → ℝ) (V : Vals E) : EE → ℝ
  | .reg i => V.ex i
  | .inner a b => ⟪a.val env V, b.val env V⟫_ℝ
  | .pow a _ => ‖a.val env V‖ ^ 2
  | .add a b => EE.val env V a + EE.val env V b
  | .sub a b => EE.val env V a - EE.val env V b
  | .neg a => - EE.val env V a
  | .scale s a => s.eval env * EE.val env V a
  | .div a c => EE.val env V a / c
  | .addNum a c => EE.val env V a + c
  | .subNum a c => EE.val env V a - c
  | .rsubNum c a => c - EE.val env V a

noncomputable def FE.val (V : Vals E) : FE → ℕ →₀ ℝ
  | .reg i => V.fn i
  | .add a b => FE.val V a + FE.val V b
  | .sub a b => FE.val V a - FE.val V b
  | .neg a => - FE.val V a
  | .scale c a => (c : ℝ) • FE.val V a
  | .div a c => (c : ℝ)⁻¹ • FE.val V a

/-- what one call requires of the assignment; `n` counts the registers before the call, `nd` the declared functions -/
def Instr.Meets (SR : ℕ → E → E → ℝ → Prop) (env : Name → ℝ) (V : Vals E) (n : Counts) (nd : ℕ) : Instr → Prop
  | .declare _ => V.fn n.nf = Finsupp.single nd 1
  | .fn a => V.fn n.nf = a.val V
  | .pt a => V.pt n.np = a.val env V
  | .ex a => V.ex n.ne = a.val env V
  | .initial => True
  | .stationary f => SumSample SR (V.fn f) (V.pt n.np) (V.pt (n.np + 1)) (V.ex n.ne) ∧ V.pt (n.np + 1) = 0
  | .oracle f x => SumSample SR (V.fn f) (V.pt x) (V.pt n.np) (V.ex n.ne)
  | .gradient f x => ∃ v, SumSample SR (V.fn f) (V.pt x) (V.pt n.np) v
  | .value f x => ∃ g, SumSample SR (V.fn f) (V.pt x) g (V.ex n.ne)
  | .prox x0 f gamma => SumSample SR (V.fn f) (V.pt n.np) (V.pt (n.np + 1)) (V.ex n.ne) ∧
      V.pt n.np + gamma.eval env • V.pt (n.np + 1) = V.pt x0
  | .conj g f => ∃ v, SumSample SR (V.fn f) (V.pt n.np) (V.pt g) v
  | .addPoint f x g v => SumSample SR (V.fn f) (V.pt x) (V.pt g) (V.ex v)
  | .constr _ _ => True
  | .metric _ => True
  | .objective _ => True

/-- number of declared functions after a call -/
def Instr.nextDecl (nd : ℕ) : Instr → ℕ
  | .declare _ => nd + 1
  | _ => nd

/-- the equations of a program -/
def MeetsAll (SR : ℕ → E → E → ℝ → Prop) (env : Name → ℝ) (V : Vals E) : List Instr → Counts → ℕ → Prop
  | [], _, _ => True
  | i :: is, n, nd => i.Meets SR env V n nd ∧ MeetsAll SR env V is (i.next n) (i.nextDecl nd)

/-- the values of the extra constraints -/
def consVals (V : Vals E) : List Instr → List (ℝ × Kind)
  | [] => []
  | .constr e k :: is => (V.ex e, k) :: consVals V is
  | _ :: is => consVals V is

/-- the register of the performance metric: the last one set -/
def metricReg : List Instr → Option ℕ → Option ℕ
  | [], m => m
  | .metric e :: is, _ => metricReg is (some e)
  | _ :: is, m => metricReg is m

end Verif
