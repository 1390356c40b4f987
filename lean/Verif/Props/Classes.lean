import Verif.Proofs.Represent
import Verif.Props.Oracle

/-!
# C11, C12: interpolation inequalities and function classes
-/

namespace Verif
open Heap
open scoped InnerProductSpace

variable {C : CAS} {h : Heap}

/-- **C11.** For every class with sensible parameters, every function `F` of the class on every real inner product space and
every two samples: the constraint the code generates for the pair raises no error, and its value is `≤ 0` whenever the two
samples are samples of `F`. -/
theorem C11_valid (hC : C.Lawful) {d : FnDecl} (hd : d.Ok) {ti tj : Triplet} (hi : h.TripletLive ti) (hj : h.TripletLive tj) :
    ∃ e h', interpolation C d.cls ti tj h = .ok (e, h') ∧ h.OnlyAdds h' ∧
      ∀ (E : Type) [NormedAddCommGroup E] [InnerProductSpace ℝ E] (F : CFun E) (env : Name → ℝ) (φ : PtId → E) (ψ : ExId → ℝ),
        d.Holds F →
        F.Sample (h.ptVal env φ ti.1) (h.ptVal env φ ti.2.1) (h.exVal env φ ψ ti.2.2) →
        F.Sample (h.ptVal env φ tj.1) (h.ptVal env φ tj.2.1) (h.exVal env φ ψ tj.2.2) →
        h'.exVal env φ ψ e ≤ 0 := by
  have hc : d.cls.Computable := by
    match d, hd with
    | .convex _, _ => trivial
    | .strongly _ _, _ => trivial
    | .smoothStrongly mu (some L), hd =>
      exact ⟨ne_of_gt (lt_of_le_of_lt hd.1 hd.2), ne_of_lt hd.2⟩
    | .smoothConvex (some L), hd => exact ne_of_gt (show 0 < L from hd)
  obtain ⟨e, h', hr, hv⟩ := interpolation_live hC hc hi hj
  refine ⟨e, h', hr.run, hr.adds, ?_⟩
  intro E _ _ F env φ ψ hF si sj
  rw [hv]
  exact lhs_nonpos hd hF si sj

/-- **C11**, the formula: the constraint is the inequality of the literature (`FnClass.lhs`, Spec/Interp). -/
theorem C11_formula (hC : C.Lawful) {cls : FnClass} (hc : cls.Computable) {ti tj : Triplet} (hi : h.TripletLive ti)
    (hj : h.TripletLive tj) {e : ExId} {h' : Heap} (hr : interpolation C cls ti tj h = .ok (e, h'))
    {E : Type} [NormedAddCommGroup E] [InnerProductSpace ℝ E] (env : Name → ℝ) (φ : PtId → E) (ψ : ExId → ℝ) :
    h'.exVal env φ ψ e = cls.lhs (h.ptVal env φ ti.1) (h.ptVal env φ ti.2.1) (h.exVal env φ ψ ti.2.2)
        (h.ptVal env φ tj.1) (h.ptVal env φ tj.2.1) (h.exVal env φ ψ tj.2.2) := by
  obtain ⟨e1, h1, r1, v1⟩ := interpolation_live hC hc hi hj
  have := r1.run
  rw [hr] at this
  simp only [Except.ok.injEq, Prod.mk.injEq] at this
  obtain ⟨rfl, rfl⟩ := this
  exact v1 env φ ψ

/-- **C11**, the corner: with `mu = L` every pair raises ZeroDivisionError (the formula divides by `1 - mu/L`). -/
theorem C11_mu_eq_L (hC : C.Lawful) {L : ℚ} (hL : L ≠ 0) {ti tj : Triplet} (hi : h.TripletLive ti) (hj : h.TripletLive tj) :
    interpolation C (.smoothStrongly L L) ti tj h = .error .zeroDivision := by
  obtain ⟨c, h1, r1, v1⟩ := convexPart_live hC hi hj
  have e1 := ext_onlyAdds (C := C) r1.adds
  obtain ⟨dg, h2, r2, v2⟩ := ptSub_live hC (e1.ptLive hi.2.1) (e1.ptLive hj.2.1)
  obtain ⟨n, h3, r3, v3⟩ := ptPow_live hC r2.live
  obtain ⟨q, h4, r4, v4⟩ := exScale_live hC (Sym.num (1 / (2 * L))) r3.live
  have a14 := (r2.adds.trans r3.adds).trans r4.adds
  obtain ⟨s, h5, r5, v5⟩ := exAdd_live hC ((ext_onlyAdds (C := C) a14).exLive r1.live) r4.live
  rw [interpolation, interpolation.smooth, M.bind_of_ok r1.run, if_neg hL, M.bind_of_ok r2.run, M.bind_of_ok r3.run,
    M.bind_of_ok r4.run, M.bind_of_ok r5.run, if_pos (by rw [div_self hL, sub_self])]
  rfl

/-- **C12.** `def_function(mu, L)` creates a new leaf function, of the class named by which of `mu`, `L` are given, with those
parameters; it reuses gradients iff `L` is finite. -/
theorem C12_declared (mu : ℚ) (L : Option ℚ) (h : Heap) :
    ∃ f h' o, defFunction mu L h = .ok (f, h') ∧ h.fns[f]? = none ∧ h'.fns[f]? = some o ∧ o.leaf = true ∧ o.points = [] ∧
      (mu = 0 → L = none → o.cls = .convex) ∧ (mu ≠ 0 → L = none → o.cls = .strongly mu) ∧
      (∀ l, mu = 0 → L = some l → o.cls = .smoothConvex l) ∧ (∀ l, mu ≠ 0 → L = some l → o.cls = .smoothStrongly mu l) ∧
      (o.reuse = true ↔ L ≠ none) := by
  have key : ∀ d h, (∃ cls re, declareFunction d = newLeafFn cls re ∧ cls = d.cls ∧ re = d.reuse) → ∃ f h' o, declareFunction d h = .ok (f, h') ∧
      h.fns[f]? = none ∧ h'.fns[f]? = some o ∧ o.leaf = true ∧ o.points = [] ∧ o.cls = d.cls ∧ o.reuse = d.reuse := by
    rintro d h ⟨cls, re, h1, h2, h3⟩
    rw [h1]
    exact ⟨_, _, _, rfl, by simp, by simp; rfl, rfl, rfl, h2, h3⟩
  obtain ⟨f, h', o, h1, h0, h2, h3, h4, h5, h6⟩ := key (defDecl mu L) h (by
    by_cases hm : mu = 0 <;> cases L <;> simp [defDecl, hm, declareFunction] <;> rfl)
  refine ⟨f, h', o, h1, h0, h2, h3, h4, ?_⟩
  rw [h5, h6]
  by_cases hm : mu = 0 <;> cases L <;> simp [defDecl, hm, FnDecl.cls, FnDecl.reuse]

/-- **C12.** The functions of the declared class: `mu`-strongly convex (convex if `mu = 0`), and if `L` is finite defined
everywhere with `L`-Lipschitz gradient. -/
theorem C12_members {E : Type} [NormedAddCommGroup E] [InnerProductSpace ℝ E] (mu : ℚ) (L : Option ℚ) (F : CFun E) :
    (defDecl mu L).Holds F ↔ StrongConvexOn F.dom (mu : ℝ) F.f ∧ ∀ l : ℚ, L = some l → F.dom = Set.univ ∧ LipschitzGradient F.f l := by
  by_cases hm : mu = 0 <;> cases L with
  | none => simp [defDecl, hm, FnDecl.Holds]
  | some l =>
    simp only [defDecl, hm, FnDecl.Holds, ne_eq, not_true, false_and, if_false, Option.isSome_some, if_true, Option.some.injEq,
      forall_eq', Rat.cast_zero, strongConvexOn_zero, not_false_eq_true, and_true]
    constructor
    · rintro ⟨h1, h2, h3⟩; rw [h1]; exact ⟨h2, rfl, h3⟩
    · rintro ⟨h1, h2, h3⟩; rw [h2] at h1; exact ⟨h2, h1, h3⟩

/-! ### Non-vacuity -/

/-- `x²` on the real line -/
def sqFun : CFun ℝ := ⟨Set.univ, fun x => x ^ 2⟩

theorem sqFun_strong : StrongConvexOn Set.univ (2 : ℝ) sqFun.f := by
  rw [strongConvexOn_iff_convex]
  have : (fun x : ℝ => sqFun.f x - 2 / 2 * ‖x‖ ^ 2) = fun _ => 0 := by
    funext x; simp [sqFun, Real.norm_eq_abs, sq_abs]
  rw [this]
  exact convexOn_const 0 convex_univ

theorem sqFun_lip {l : ℝ} (hl : 2 ≤ l) : LipschitzGradient sqFun.f l := by
  refine ⟨fun x => 2 * x, fun x => ?_, fun x y => ?_⟩
  · have := (hasDerivAt_pow 2 x).hasFDerivAt
    refine this.congr_fderiv ?_
    ext; simp
  · rw [← mul_sub, norm_mul]
    simp only [Real.norm_ofNat]
    exact mul_le_mul_of_nonneg_right hl (norm_nonneg _)

/-- `x²` is in each of the four classes, with the same constants -/
example : (defDecl 1 (some 3)).Holds sqFun ∧ (defDecl 0 (some 2)).Holds sqFun ∧ (defDecl 2 none).Holds sqFun ∧
    (defDecl 0 none).Holds sqFun ∧ (defDecl 1 (some 3)).Ok := by
  refine ⟨?_, ?_, ?_, ?_, ?_⟩
  · rw [C12_members]
    exact ⟨sqFun_strong.mono (by norm_num), fun l hl => by cases hl; exact ⟨rfl, sqFun_lip (by norm_num)⟩⟩
  · rw [C12_members]
    exact ⟨sqFun_strong.mono (by norm_num), fun l hl => by cases hl; exact ⟨rfl, sqFun_lip (by norm_num)⟩⟩
  · rw [C12_members]
    exact ⟨by simpa [sqFun] using sqFun_strong, fun l hl => by cases hl⟩
  · rw [C12_members]
    exact ⟨sqFun_strong.mono (by norm_num), fun l hl => by cases hl⟩
  · simp [defDecl, FnDecl.Ok]

/-- a function that is not differentiable: the indicator of `[0, 1]` is convex, and every non-positive `g` is a subgradient at 0 -/
def boxFun : CFun ℝ := ⟨Set.Icc 0 1, fun _ => 0⟩
example : (defDecl 0 none).Holds boxFun ∧ boxFun.Sample 0 (-3) 0 ∧ boxFun.Sample 0 0 0 := by
  refine ⟨?_, ?_, ?_⟩
  · rw [C12_members]
    exact ⟨by simpa [boxFun] using convexOn_const 0 (convex_Icc 0 1), fun l hl => by cases hl⟩
  · refine ⟨by simp [boxFun], rfl, fun y hy => ?_⟩
    have := hy.1
    simp [boxFun]; linarith
  · exact ⟨by simp [boxFun], rfl, fun y hy => by simp [boxFun]⟩

/-- samples of `x²` at 1 and 3, whose inequality of `C11` has a definite value -/
example : sqFun.Sample 1 2 1 ∧ sqFun.Sample 3 6 9 ∧ (FnClass.smoothConvex 2).lhs (1:ℝ) (2:ℝ) 1 (3:ℝ) (6:ℝ) 9 = 0 ∧
    (FnClass.smoothConvex 3).lhs (1:ℝ) (2:ℝ) 1 (3:ℝ) (6:ℝ) 9 = -4/3 := by
  refine ⟨⟨trivial, by norm_num [sqFun], fun y _ => ?_⟩, ⟨trivial, by norm_num [sqFun], fun y _ => ?_⟩, ?_, ?_⟩
  · simp [sqFun]; nlinarith [sq_nonneg (y - 1)]
  · simp [sqFun]; nlinarith [sq_nonneg (y - 3)]
  · norm_num [FnClass.lhs]
  · norm_num [FnClass.lhs]

end Verif
