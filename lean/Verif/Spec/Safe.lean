import Verif.Model.Program

/-!
# Static correctness of API programs

A program is `Safe` when every variable it uses was defined before, no division by the number 0 occurs, powers are squares, and smooth
classes are declared with a finite L.
-/

namespace Verif

def PE.Safe (np : ℕ) : PE → Bool
  | .reg i => i < np
  | .add a b => PE.Safe np a && PE.Safe np b
  | .sub a b => PE.Safe np a && PE.Safe np b
  | .neg a => PE.Safe np a
  | .scale _ a => PE.Safe np a
  | .div a c => PE.Safe np a && decide (c ≠ 0)

def EE.Safe (np ne : ℕ) : EE → Bool
  | .reg i => i < ne
  | .inner a b => a.Safe np && b.Safe np
  | .pow a n => a.Safe np && decide (n = 2)
  | .add a b => EE.Safe np ne a && EE.Safe np ne b
  | .sub a b => EE.Safe np ne a && EE.Safe np ne b
  | .neg a => EE.Safe np ne a
  | .scale _ a => EE.Safe np ne a
  | .div a c => EE.Safe np ne a && decide (c ≠ 0)
  | .addNum a _ => EE.Safe np ne a
  | .subNum a _ => EE.Safe np ne a
  | .rsubNum _ a => EE.Safe np ne a

def FE.Safe (nf : ℕ) : FE → Bool
  | .reg i => i < nf
  | .add a b => FE.Safe nf a && FE.Safe nf b
  | .sub a b => FE.Safe nf a && FE.Safe nf b
  | .neg a => FE.Safe nf a
  | .scale _ a => FE.Safe nf a
  | .div a c => FE.Safe nf a && decide (c ≠ 0)

def FnDecl.Safe : FnDecl → Bool
  | .smoothStrongly _ none => false
  | .smoothConvex none => false
  | _ => true

/-- numbers of points, expressions and functions a script holds -/
structure Counts where
  np : ℕ
  ne : ℕ
  nf : ℕ
deriving DecidableEq

def Regs.counts (r : Regs) : Counts := ⟨r.pts.length, r.exs.length, r.fns.length⟩

def Instr.Safe (n : Counts) : Instr → Bool
  | .declare d => d.Safe
  | .fn a => a.Safe n.nf
  | .pt a => a.Safe n.np
  | .ex a => a.Safe n.np n.ne
  | .initial => true
  | .stationary f => f < n.nf
  | .oracle f x | .gradient f x | .value f x => decide (f < n.nf) && decide (x < n.np)
  | .prox x f _ | .conj x f => decide (x < n.np) && decide (f < n.nf)
  | .addPoint f x g v => decide (f < n.nf) && decide (x < n.np) && decide (g < n.np) && decide (v < n.ne)
  | .constr e _ | .metric e => e < n.ne
  | .objective _ => true

/-- the numbers after one call -/
def Instr.next (n : Counts) : Instr → Counts
  | .declare _ | .fn _ => { n with nf := n.nf + 1 }
  | .pt _ | .initial | .gradient _ _ | .conj _ _ => { n with np := n.np + 1 }
  | .ex _ | .value _ _ => { n with ne := n.ne + 1 }
  | .stationary _ | .prox _ _ _ => { n with np := n.np + 2, ne := n.ne + 1 }
  | .oracle _ _ => { n with np := n.np + 1, ne := n.ne + 1 }
  | .addPoint _ _ _ _ | .constr _ _ | .metric _ | .objective _ => n

def SafeProg : List Instr → Counts → Bool
  | [], _ => true
  | i :: is, n => i.Safe n && SafeProg is (i.next n)

end Verif
