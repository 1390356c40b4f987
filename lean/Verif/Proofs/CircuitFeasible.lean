import Verif.Props.Certificate
import Verif.Proofs.CircuitSem

namespace Verif

variable {C : CAS} {prog : List Instr} {params : List Name} {env : Name → ℝ}

/-- C26 for a feasible point of the nonlinear program -/
theorem guaranteed_of_feasible (hC : C.Lawful) (hclean : ∀ i ∈ prog, i.Clean {n | n ∈ params}) (hpl : ∀ n ∈ params, Plain n)
    (hnd : ∀ n ∈ params, ¬ IsDual n) (hok : ∀ d ∈ decls prog, d.Ok) (h : IpoptFeasible C prog params env) : Guaranteed prog env := by
  obtain ⟨r, h, bounds, init, nlp, h', σ, hr, hn, hσ, rfl⟩ := h
  intro E _ _ fs hi rr hx hcons v hv
  exact (C26_sound hC hr hclean hpl hnd hok hn hσ).2 fs hi rr hx hcons v hv

end Verif
