import Verif.Proofs.Interpolate
import Verif.Proofs.Interp
import Verif.Spec.Standard

/-!
# C66: the inequalities of a class characterise its samples
-/

namespace Verif
open scoped InnerProductSpace

theorem FnDecl.reuse_of_default {d : FnDecl} (h : d.Default = true) : d.cls = .convex ∨ (∃ mu, d.cls = .strongly mu) → d.reuse = false := by
  intro hc
  cases d with
  | convex re => simpa [FnDecl.Default, FnDecl.reuse] using h
  | strongly mu re => simpa [FnDecl.Default, FnDecl.reuse] using h
  | smoothStrongly mu L => cases L <;> simp [FnDecl.cls] at hc
  | smoothConvex L => cases L <;> simp [FnDecl.cls] at hc

/-- **C66.** For every declared class with meaningful parameters, in every real inner product space and for every finite list of triplets
`(x, g, v)`: the inequalities that the class imposes on all ordered pairs hold iff some function of the class has all triplets as samples
(value `v` and subgradient `g` at `x`).  So the inequalities never exclude a function of the class (C11), and never admit data that no
function of the class has. -/
theorem C66_exact {E : Type} [NormedAddCommGroup E] [InnerProductSpace ℝ E] {d : FnDecl} (hok : d.Ok) (hdef : d.Default = true)
    (l : List (E × E × ℝ)) :
    (∀ s ∈ l, ∀ t ∈ l, d.cls.lhs s.1 s.2.1 s.2.2 t.1 t.2.1 t.2.2 ≤ 0) ↔
      ∃ F : CFun E, d.Holds F ∧ ∀ s ∈ l, F.Sample s.1 s.2.1 s.2.2 := by
  constructor
  · exact Interp.exists_of_lhs d hok (FnDecl.reuse_of_default hdef) l
  · rintro ⟨F, hF, h⟩ s hs t ht
    exact lhs_nonpos hok hF (h s hs) (h t ht)

/-- two samples of no function with one subgradient per point: the slope at 1 is 0 and 1 -/
def kinkData : List (ℝ × ℝ × ℝ) := [(0, 0, 0), (1, 1, 0)]

/-- **C66**, the other policy: with `reuse_gradient=True` the inequalities of the convex functions do not characterise the samples, because
they do not say that there is only one subgradient per point. -/
theorem C66_reuse_gap :
    (∀ s ∈ kinkData, ∀ t ∈ kinkData, (FnDecl.convex true).cls.lhs s.1 s.2.1 s.2.2 t.1 t.2.1 t.2.2 ≤ 0) ∧
    ¬ ∃ F : CFun ℝ, (FnDecl.convex true).Holds F ∧ ∀ s ∈ kinkData, F.Sample s.1 s.2.1 s.2.2 := by
  constructor
  · simp [kinkData, FnDecl.cls, FnClass.lhs]
  · rintro ⟨F, hF, h⟩
    have h0 := h (0, 0, 0) (by simp [kinkData])
    have h1 := h (1, 1, 0) (by simp [kinkData])
    have h2 : F.Sample 1 0 0 := ⟨h1.1, h1.2.1, fun y hy => by simpa using h0.2.2 y hy⟩
    exact one_ne_zero (hF.2 rfl 1 1 0 0 0 h1 h2)

/-! ### Non-vacuity: data of every kind of class -/

/-- samples of `|x|` with two subgradients at 0 -/
example : ∀ s ∈ ([(0, 0, 0), (0, 1, 0), (2, 1, 2)] : List (ℝ × ℝ × ℝ)), ∀ t ∈ ([(0, 0, 0), (0, 1, 0), (2, 1, 2)] : List (ℝ × ℝ × ℝ)),
    (FnDecl.convex false).cls.lhs s.1 s.2.1 s.2.2 t.1 t.2.1 t.2.2 ≤ 0 := by
  norm_num [FnDecl.cls, FnClass.lhs]

/-- samples of `x²` -/
example : ∀ s ∈ ([(0, 0, 0), (1, 2, 1)] : List (ℝ × ℝ × ℝ)), ∀ t ∈ ([(0, 0, 0), (1, 2, 1)] : List (ℝ × ℝ × ℝ)),
    (FnDecl.smoothStrongly 1 (some 3)).cls.lhs s.1 s.2.1 s.2.2 t.1 t.2.1 t.2.2 ≤ 0 := by
  norm_num [FnDecl.cls, FnClass.lhs]

end Verif
