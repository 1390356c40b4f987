import Verif.Model.Program
import Mathlib.Data.Set.Basic

/-!
# Programs that use given symbols and no numeric constants
-/

namespace Verif

/-- Every scalar stored in the heap uses only the symbols `V`, and no Expression has a non-zero numeric constant. -/
structure Heap.Clean (V : Set Name) (h : Heap) : Prop where
  pts : ∀ o ∈ h.pts, ∀ kw ∈ o.dict, ∀ n ∈ kw.2.vars, n ∈ V
  exs : ∀ o ∈ h.exs, ∀ kw ∈ o.dict, (∀ n ∈ kw.2.vars, n ∈ V) ∧ (kw.1 = .one → ∀ env, kw.2.eval env = 0)

def PE.Clean (V : Set Name) : PE → Prop
  | .reg _ => True
  | .add a b => PE.Clean V a ∧ PE.Clean V b
  | .sub a b => PE.Clean V a ∧ PE.Clean V b
  | .neg a => PE.Clean V a
  | .scale s a => (∀ n ∈ s.vars, n ∈ V) ∧ PE.Clean V a
  | .div a _ => PE.Clean V a

def EE.Clean (V : Set Name) : EE → Prop
  | .reg _ => True
  | .inner a b => a.Clean V ∧ b.Clean V
  | .pow a _ => a.Clean V
  | .add a b => EE.Clean V a ∧ EE.Clean V b
  | .sub a b => EE.Clean V a ∧ EE.Clean V b
  | .neg a => EE.Clean V a
  | .scale s a => (∀ n ∈ s.vars, n ∈ V) ∧ EE.Clean V a
  | .div a _ => EE.Clean V a
  | .addNum a c => EE.Clean V a ∧ c = 0
  | .subNum a c => EE.Clean V a ∧ c = 0
  | .rsubNum c a => EE.Clean V a ∧ c = 0

/-- the call uses only the symbols `V` and adds no number except 0 to an Expression -/
def Instr.Clean (V : Set Name) : Instr → Prop
  | .pt a => a.Clean V
  | .ex a => a.Clean V
  | .prox _ _ gamma => ∀ n ∈ gamma.vars, n ∈ V
  | .objective e => ∀ n ∈ e.vars, n ∈ V
  | _ => True

end Verif
