import Verif.Spec.Represent
import Verif.Spec.Clean
import Verif.Spec.Dual
import Mathlib.Analysis.Calculus.FDeriv.Comp
import Mathlib.Analysis.Calculus.FDeriv.Linear
import Mathlib.Analysis.Calculus.FDeriv.Add
import Mathlib.Analysis.Calculus.FDeriv.Mul

/-!
# Scaling of functions and executions

If `f` belongs to a class then so does `x ↦ t² f(x/t)`; an execution with points `x` and numbers `v` becomes one with points `t x` and numbers `t² v`.
-/

namespace Verif
open scoped InnerProductSpace

variable {E : Type} [NormedAddCommGroup E] [InnerProductSpace ℝ E]

/-- `x ↦ t² f(x/t)` -/
noncomputable def CFun.scale (t : ℝ) (F : CFun E) : CFun E := ⟨{x | t⁻¹ • x ∈ F.dom}, fun x => t ^ 2 * F.f (t⁻¹ • x)⟩

theorem CFun.Sample.scale {F : CFun E} {x g : E} {v t : ℝ} (ht : t ≠ 0) (h : F.Sample x g v) :
    (F.scale t).Sample (t • x) (t • g) (t ^ 2 * v) := by
  have hx : t⁻¹ • t • x = x := inv_smul_smul₀ ht x
  refine ⟨?_, ?_, ?_⟩
  · show t⁻¹ • t • x ∈ F.dom
    rw [hx]; exact h.1
  · show t ^ 2 * F.f (t⁻¹ • t • x) = _
    rw [hx, h.2.1]
  · intro y hy
    show _ ≤ t ^ 2 * F.f (t⁻¹ • y)
    have h1 := h.2.2 (t⁻¹ • y) hy
    have h2 : ⟪t • g, y - t • x⟫_ℝ = t ^ 2 * ⟪g, t⁻¹ • y - x⟫_ℝ := by
      conv_lhs => rw [show y = t • t⁻¹ • y from (smul_inv_smul₀ ht y).symm, ← smul_sub, inner_smul_left, inner_smul_right]
      simp; ring
    rw [h2, ← mul_add]
    exact mul_le_mul_of_nonneg_left h1 (sq_nonneg t)

theorem CFun.scale_inv {t : ℝ} (ht : t ≠ 0) (F : CFun E) : (F.scale t).scale t⁻¹ = F := by
  obtain ⟨D, f⟩ := F
  simp only [CFun.scale, inv_inv, Set.mem_ofPred_eq, CFun.mk.injEq]
  constructor
  · ext x; simp [inv_smul_smul₀ ht]
  · funext x
    rw [inv_smul_smul₀ ht]
    field_simp

theorem CFun.Sample.unscale {F : CFun E} {x g : E} {v t : ℝ} (ht : t ≠ 0) (h : (F.scale t).Sample x g v) :
    F.Sample (t⁻¹ • x) (t⁻¹ • g) (t⁻¹ ^ 2 * v) := by
  have := h.scale (inv_ne_zero ht)
  rwa [CFun.scale_inv ht] at this

theorem convexOn_scale {t : ℝ} {F : CFun E} (h : ConvexOn ℝ F.dom F.f) : ConvexOn ℝ (F.scale t).dom (F.scale t).f := by
  have := (h.comp_linearMap (LinearMap.lsmul ℝ E t⁻¹)).smul (sq_nonneg t)
  exact this

theorem strongConvexOn_scale {t m : ℝ} (ht : t ≠ 0) {F : CFun E} (h : StrongConvexOn F.dom m F.f) : StrongConvexOn (F.scale t).dom m (F.scale t).f := by
  refine ⟨?_, ?_⟩
  · intro x hx y hy a b ha hb hab
    have := h.1 hx hy ha hb hab
    show t⁻¹ • (a • x + b • y) ∈ F.dom
    rw [smul_add, smul_comm t⁻¹ a, smul_comm t⁻¹ b]
    exact this
  · intro x hx y hy a b ha hb hab
    have h1 := h.2 hx hy ha hb hab
    simp only [CFun.scale, smul_eq_mul] at h1 ⊢
    have h2 : ‖t⁻¹ • x - t⁻¹ • y‖ ^ 2 = (t ^ 2)⁻¹ * ‖x - y‖ ^ 2 := by
      rw [← smul_sub, norm_smul, mul_pow, Real.norm_eq_abs, sq_abs, inv_pow]
    rw [h2] at h1
    rw [smul_add, smul_comm t⁻¹ a, smul_comm t⁻¹ b]
    have h3 := mul_le_mul_of_nonneg_left h1 (sq_nonneg t)
    refine h3.trans (le_of_eq ?_)
    field_simp

theorem lipschitz_scale {t L : ℝ} (ht : t ≠ 0) {f : E → ℝ} (h : LipschitzGradient f L) : LipschitzGradient (fun x => t ^ 2 * f (t⁻¹ • x)) L := by
  obtain ⟨G, hG, hL⟩ := h
  refine ⟨fun x => t • G (t⁻¹ • x), fun x => ?_, fun x y => ?_⟩
  · have h1 : HasFDerivAt (fun x : E => t⁻¹ • x) (t⁻¹ • ContinuousLinearMap.id ℝ E) x := (hasFDerivAt_id x).const_smul t⁻¹
    have h2 := ((hG (t⁻¹ • x)).comp x h1).const_mul (t ^ 2)
    have h3 : innerSL ℝ (t • G (t⁻¹ • x)) = t ^ 2 • (innerSL ℝ (G (t⁻¹ • x))).comp (t⁻¹ • ContinuousLinearMap.id ℝ E) := by
      ext y
      simp
      field_simp
    rw [h3]
    exact h2
  · rw [← smul_sub, norm_smul]
    have := hL (t⁻¹ • x) (t⁻¹ • y)
    rw [← smul_sub, norm_smul] at this
    calc ‖t‖ * ‖G (t⁻¹ • x) - G (t⁻¹ • y)‖ ≤ ‖t‖ * (L * (‖t⁻¹‖ * ‖x - y‖)) := mul_le_mul_of_nonneg_left this (norm_nonneg t)
      _ = L * ‖x - y‖ := by
        rw [norm_inv]
        have : ‖t‖ ≠ 0 := norm_ne_zero_iff.2 ht
        field_simp

theorem unique_scale {t : ℝ} (ht : t ≠ 0) {F : CFun E} (h : ∀ x g g' v v', F.Sample x g v → F.Sample x g' v' → g = g') :
    ∀ x g g' v v', (F.scale t).Sample x g v → (F.scale t).Sample x g' v' → g = g' := by
  intro x g g' v v' h1 h2
  have := h _ _ _ _ _ (h1.unscale ht) (h2.unscale ht)
  exact smul_right_injective E (inv_ne_zero ht) this

/-- the classes are closed under scaling -/
theorem FnDecl.Holds.scale {t : ℝ} (ht : t ≠ 0) {F : CFun E} : ∀ {d : FnDecl}, d.Holds F → d.Holds (F.scale t)
  | .convex _, h => ⟨convexOn_scale h.1, fun hr => unique_scale ht (h.2 hr)⟩
  | .strongly _ _, h => ⟨strongConvexOn_scale ht h.1, fun hr => unique_scale ht (h.2 hr)⟩
  | .smoothStrongly mu (some L), h => by
    have hd : (F.scale t).dom = Set.univ := by
      ext x; simp [CFun.scale, h.1]
    refine ⟨hd, ?_, lipschitz_scale ht h.2.2⟩
    have := strongConvexOn_scale ht (m := mu) (F := F) (by rw [h.1]; exact h.2.1)
    rwa [hd] at this
  | .smoothConvex (some L), h => by
    have hd : (F.scale t).dom = Set.univ := by
      ext x; simp [CFun.scale, h.1]
    refine ⟨hd, ?_, lipschitz_scale ht h.2.2⟩
    have := convexOn_scale (t := t) (F := F) (by rw [h.1]; exact h.2.1)
    rwa [hd] at this
  | .smoothStrongly _ none, h => h.elim
  | .smoothConvex none, h => h.elim

/-- points `t x`, numbers `t² v` -/
def RRegs.scale (t : ℝ) (rr : RRegs E) : RRegs E where
  pts := rr.pts.map fun x => t • x
  exs := rr.exs.map fun v => t ^ 2 * v
  fns := rr.fns
  ndecl := rr.ndecl
  cons := rr.cons.map fun c => (t ^ 2 * c.1, c.2)
  metric := rr.metric.map fun v => t ^ 2 * v

theorem getD_smul (t : ℝ) (l : List E) (i : ℕ) : (l.map fun x => t • x).getD i 0 = t • l.getD i 0 := by
  simp only [List.getD_eq_getElem?_getD, List.getElem?_map]
  cases l[i]? <;> simp

theorem getD_mul (c : ℝ) (l : List ℝ) (i : ℕ) : (l.map fun x => c * x).getD i 0 = c * l.getD i 0 := by
  simp only [List.getD_eq_getElem?_getD, List.getElem?_map]
  cases l[i]? <;> simp

theorem PE.den_scale (env : Name → ℝ) (t : ℝ) (ps : List E) : ∀ a : PE, a.den env (ps.map fun x => t • x) = t • a.den env ps
  | .reg i => by simp only [PE.den]; exact getD_smul t ps i
  | .add a b => by simp only [PE.den, PE.den_scale env t ps a, PE.den_scale env t ps b, smul_add]
  | .sub a b => by simp only [PE.den, PE.den_scale env t ps a, PE.den_scale env t ps b, smul_sub]
  | .neg a => by simp only [PE.den, PE.den_scale env t ps a, smul_neg]
  | .scale s a => by simp only [PE.den, PE.den_scale env t ps a]; rw [smul_comm]
  | .div a c => by simp only [PE.den, PE.den_scale env t ps a]; rw [smul_comm]

theorem EE.den_scale {V : Set Name} (env : Name → ℝ) (t : ℝ) (ps : List E) (es : List ℝ) : ∀ a : EE, a.Clean V →
    a.den env (ps.map fun x => t • x) (es.map fun v => t ^ 2 * v) = t ^ 2 * a.den env ps es
  | .reg i, _ => by simp only [EE.den]; exact getD_mul _ es i
  | .inner a b, _ => by simp only [EE.den, PE.den_scale, inner_smul_left, inner_smul_right]; simp; ring
  | .pow a n, _ => by simp only [EE.den, PE.den_scale, norm_smul, mul_pow, Real.norm_eq_abs, sq_abs]
  | .add a b, h => by simp only [EE.den, EE.den_scale env t ps es a h.1, EE.den_scale env t ps es b h.2, mul_add]
  | .sub a b, h => by simp only [EE.den, EE.den_scale env t ps es a h.1, EE.den_scale env t ps es b h.2, mul_sub]
  | .neg a, h => by simp only [EE.den, EE.den_scale env t ps es a h, mul_neg]
  | .scale s a, h => by simp only [EE.den, EE.den_scale env t ps es a h.2]; ring
  | .div a c, h => by simp only [EE.den, EE.den_scale env t ps es a h]; ring
  | .addNum a c, h => by simp only [EE.den, EE.den_scale env t ps es a h.1, h.2]; simp
  | .subNum a c, h => by simp only [EE.den, EE.den_scale env t ps es a h.1, h.2]; simp
  | .rsubNum c a, h => by simp only [EE.den, EE.den_scale env t ps es a h.1, h.2]; simp

theorem SumSample.scale {fs : ℕ → CFun E} {t : ℝ} (ht : t ≠ 0) {w : ℕ →₀ ℝ} {x g : E} {v : ℝ} (h : SumSample (fun k => (fs k).Sample) w x g v) :
    SumSample (fun k => ((fs k).scale t).Sample) w (t • x) (t • g) (t ^ 2 * v) := by
  obtain ⟨G, V, h1, h2, h3⟩ := h
  refine ⟨fun k => t • G k, fun k => t ^ 2 * V k, fun k hk => (h1 k hk).scale ht, ?_, ?_⟩
  · rw [h2, Finsupp.smul_sum]
    exact Finsupp.sum_congr fun k _ => smul_comm _ _ _
  · rw [h3, Finsupp.mul_sum]
    exact Finsupp.sum_congr fun k _ => by ring

theorem Step.scale {fs : ℕ → CFun E} {env : Name → ℝ} {V : Set Name} {t : ℝ} (ht : t ≠ 0) {i : Instr} (hi : i.Clean V) {r r' : RRegs E}
    (h : Step (fun k => (fs k).Sample) env i r r') : Step (fun k => ((fs k).scale t).Sample) env i (r.scale t) (r'.scale t) := by
  cases h with
  | declare _ d => exact .declare (r.scale t) d
  | fn _ a => exact .fn (r.scale t) a
  | pt _ a =>
    have := Step.pt (SR := fun k => ((fs k).scale t).Sample) (env := env) (r.scale t) a
    simp only [RRegs.scale, PE.den_scale] at this
    simpa only [RRegs.scale, List.map_append, List.map_cons, List.map_nil] using this
  | ex _ a =>
    have := Step.ex (SR := fun k => ((fs k).scale t).Sample) (env := env) (r.scale t) a
    simp only [RRegs.scale, EE.den_scale env t r.pts r.exs a hi] at this
    simpa only [RRegs.scale, List.map_append, List.map_cons, List.map_nil] using this
  | initial _ x => simpa only [RRegs.scale, List.map_append, List.map_cons, List.map_nil] using Step.initial (r.scale t) (t • x)
  | stationary _ f x v h =>
    have := h.scale ht
    rw [smul_zero] at this
    simpa only [RRegs.scale, List.map_append, List.map_cons, List.map_nil, smul_zero] using Step.stationary (r.scale t) f (t • x) (t ^ 2 * v) this
  | oracle _ f x g v h =>
    have := h.scale ht
    rw [← getD_smul] at this
    simpa only [RRegs.scale, List.map_append, List.map_cons, List.map_nil] using Step.oracle (r.scale t) f x (t • g) (t ^ 2 * v) this
  | gradient _ f x g v h =>
    have := h.scale ht
    rw [← getD_smul] at this
    simpa only [RRegs.scale, List.map_append, List.map_cons, List.map_nil] using Step.gradient (r.scale t) f x (t • g) (t ^ 2 * v) this
  | value _ f x g v h =>
    have := h.scale ht
    rw [← getD_smul] at this
    simpa only [RRegs.scale, List.map_append, List.map_cons, List.map_nil] using Step.value (r.scale t) f x (t • g) (t ^ 2 * v) this
  | prox _ x0 f gamma x g v h hx =>
    have hx' : t • x + gamma.eval env • t • g = (r.scale t).pts.getD x0 0 := by
      show _ = (r.pts.map fun x => t • x).getD x0 0
      rw [getD_smul, ← hx, smul_add, smul_comm t]
    simpa only [RRegs.scale, List.map_append, List.map_cons, List.map_nil] using
      Step.prox (r.scale t) x0 f gamma (t • x) (t • g) (t ^ 2 * v) (h.scale ht) hx'
  | conj _ g f x v h =>
    have := h.scale ht
    rw [← getD_smul] at this
    simpa only [RRegs.scale, List.map_append, List.map_cons, List.map_nil] using Step.conj (r.scale t) g f (t • x) (t ^ 2 * v) this
  | addPoint _ f x g v h =>
    have := h.scale ht
    rw [← getD_smul, ← getD_smul, ← getD_mul] at this
    exact Step.addPoint (r.scale t) f x g v this
  | constr _ e k =>
    have := Step.constr (SR := fun k => ((fs k).scale t).Sample) (env := env) (r.scale t) e k
    simp only [RRegs.scale, getD_mul] at this
    simpa only [RRegs.scale, List.map_append, List.map_cons, List.map_nil] using this
  | metric _ e =>
    have := Step.metric (SR := fun k => ((fs k).scale t).Sample) (env := env) (r.scale t) e
    simp only [RRegs.scale, getD_mul] at this
    simpa only [RRegs.scale, Option.map_some] using this
  | objective _ e => exact .objective (r.scale t) e

theorem Exec.scale {fs : ℕ → CFun E} {env : Name → ℝ} {V : Set Name} {t : ℝ} (ht : t ≠ 0) {prog : List Instr} (hc : ∀ i ∈ prog, i.Clean V)
    {r r' : RRegs E} (h : Exec (fun k => (fs k).Sample) env prog r r') : Exec (fun k => ((fs k).scale t).Sample) env prog (r.scale t) (r'.scale t) := by
  induction h with
  | nil r => exact .nil _
  | cons hs _ ih => exact .cons (hs.scale ht (hc _ List.mem_cons_self)) (ih fun i hi => hc i (List.mem_cons_of_mem _ hi))

theorem RRegs.ConsHold.scale {t : ℝ} {rr : RRegs E} (h : rr.ConsHold) : (rr.scale t).ConsHold := by
  intro c hc
  obtain ⟨c', hc', rfl⟩ := List.mem_map.1 hc
  have := h c' hc'
  rcases c' with ⟨v, k⟩
  cases k with
  | inequality => exact mul_nonpos_of_nonneg_of_nonpos (sq_nonneg t) this
  | equality =>
    have : v = 0 := this
    show t ^ 2 * v = 0
    rw [this, mul_zero]

end Verif
