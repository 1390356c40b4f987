import Verif.Model.Program
import Mathlib.Analysis.InnerProductSpace.Basic
import Mathlib.Data.Finsupp.SMul

/-!
# Real executions of API programs

What an API program means without symbols: points are vectors of a real inner product space `E`, expressions are numbers,
functions are weighted sums of declared functions.  `SR k x g v` says that `v` is the value and `g` a subgradient at `x` of the
declared function number `k`; `env` gives the values of the symbols.
-/

namespace Verif
open scoped InnerProductSpace

/-- the vectors, numbers and functions a script holds; a function is given by its weights on the declared functions -/
structure RRegs (E : Type) where
  pts : List E
  exs : List ℝ
  fns : List (ℕ →₀ ℝ)
  ndecl : ℕ
  cons : List (ℝ × Kind)
  metric : Option ℝ

def RRegs.empty (E : Type) : RRegs E := ⟨[], [], [], 0, [], none⟩

variable {E : Type} [NormedAddCommGroup E] [InnerProductSpace ℝ E]

noncomputable def PE.den (env : Name → ℝ) (ps : List E) : PE → E
  | .reg i => ps.getD i 0
  | .add a b => PE.den env ps a + PE.den env ps b
  | .sub a b => PE.den env ps a - PE.den env ps b
  | .neg a => - PE.den env ps a
  | .scale s a => s.eval env • PE.den env ps a
  | .div a c => (c : ℝ)⁻¹ • PE.den env ps a

noncomputable def EE.den (env : Name → ℝ) (ps : List E) (es : List ℝ) : EE → ℝ
  | .reg i => es.getD i 0
  | .inner a b => ⟪a.den env ps, b.den env ps⟫_ℝ
  | .pow a _ => ‖a.den env ps‖ ^ 2
  | .add a b => EE.den env ps es a + EE.den env ps es b
  | .sub a b => EE.den env ps es a - EE.den env ps es b
  | .neg a => - EE.den env ps es a
  | .scale s a => s.eval env * EE.den env ps es a
  | .div a c => EE.den env ps es a / c
  | .addNum a c => EE.den env ps es a + c
  | .subNum a c => EE.den env ps es a - c
  | .rsubNum c a => c - EE.den env ps es a

noncomputable def FE.den (fs : List (ℕ →₀ ℝ)) : FE → ℕ →₀ ℝ
  | .reg i => fs.getD i 0
  | .add a b => FE.den fs a + FE.den fs b
  | .sub a b => FE.den fs a - FE.den fs b
  | .neg a => - FE.den fs a
  | .scale c a => (c : ℝ) • FE.den fs a
  | .div a c => (c : ℝ)⁻¹ • FE.den fs a

/-- `(g, v)` is gradient and value at `x` of the function with weights `w`: a combination of gradients and values of the
functions with non-zero weight -/
def SumSample (SR : ℕ → E → E → ℝ → Prop) (w : ℕ →₀ ℝ) (x g : E) (v : ℝ) : Prop :=
  ∃ (G : ℕ → E) (V : ℕ → ℝ), (∀ k ∈ w.support, SR k x (G k) (V k)) ∧
    g = w.sum (fun k c => c • G k) ∧ v = w.sum (fun k c => c * V k)

/-- One API call on real data.  What is not determined by the program (starting points, choice of subgradients, the point of an
implicit step or a stationary point) is arbitrary. -/
inductive Step (SR : ℕ → E → E → ℝ → Prop) (env : Name → ℝ) : Instr → RRegs E → RRegs E → Prop
  | declare (r : RRegs E) (d) : Step SR env (.declare d) r
      { r with fns := r.fns ++ [Finsupp.single r.ndecl 1], ndecl := r.ndecl + 1 }
  | fn (r : RRegs E) (a) : Step SR env (.fn a) r { r with fns := r.fns ++ [a.den r.fns] }
  | pt (r : RRegs E) (a) : Step SR env (.pt a) r { r with pts := r.pts ++ [a.den env r.pts] }
  | ex (r : RRegs E) (a) : Step SR env (.ex a) r { r with exs := r.exs ++ [a.den env r.pts r.exs] }
  | initial (r : RRegs E) (x : E) : Step SR env .initial r { r with pts := r.pts ++ [x] }
  | stationary (r : RRegs E) (f) (x : E) (v : ℝ) (h : SumSample SR (r.fns.getD f 0) x 0 v) :
      Step SR env (.stationary f) r { r with pts := r.pts ++ [x, 0], exs := r.exs ++ [v] }
  | oracle (r : RRegs E) (f x) (g : E) (v : ℝ) (h : SumSample SR (r.fns.getD f 0) (r.pts.getD x 0) g v) :
      Step SR env (.oracle f x) r { r with pts := r.pts ++ [g], exs := r.exs ++ [v] }
  | gradient (r : RRegs E) (f x) (g : E) (v : ℝ) (h : SumSample SR (r.fns.getD f 0) (r.pts.getD x 0) g v) :
      Step SR env (.gradient f x) r { r with pts := r.pts ++ [g] }
  | value (r : RRegs E) (f x) (g : E) (v : ℝ) (h : SumSample SR (r.fns.getD f 0) (r.pts.getD x 0) g v) :
      Step SR env (.value f x) r { r with exs := r.exs ++ [v] }
  | prox (r : RRegs E) (x0 f gamma) (x g : E) (v : ℝ) (h : SumSample SR (r.fns.getD f 0) x g v)
      (hx : x + gamma.eval env • g = r.pts.getD x0 0) :
      Step SR env (.prox x0 f gamma) r { r with pts := r.pts ++ [x, g], exs := r.exs ++ [v] }
  | conj (r : RRegs E) (g f) (x : E) (v : ℝ) (h : SumSample SR (r.fns.getD f 0) x (r.pts.getD g 0) v) :
      Step SR env (.conj g f) r { r with pts := r.pts ++ [x] }
  | addPoint (r : RRegs E) (f x g v)
      (h : SumSample SR (r.fns.getD f 0) (r.pts.getD x 0) (r.pts.getD g 0) (r.exs.getD v 0)) :
      Step SR env (.addPoint f x g v) r r
  | constr (r : RRegs E) (e k) : Step SR env (.constr e k) r { r with cons := r.cons ++ [(r.exs.getD e 0, k)] }
  | metric (r : RRegs E) (e) : Step SR env (.metric e) r { r with metric := some (r.exs.getD e 0) }
  | objective (r : RRegs E) (e) : Step SR env (.objective e) r r

/-- a real execution of a program -/
inductive Exec (SR : ℕ → E → E → ℝ → Prop) (env : Name → ℝ) : List Instr → RRegs E → RRegs E → Prop
  | nil (r) : Exec SR env [] r r
  | cons {i is r r' r''} (h : Step SR env i r r') (t : Exec SR env is r' r'') : Exec SR env (i :: is) r r''

end Verif
