import Verif.Spec.Interp
import Verif.Proofs.Convex
import Verif.Proofs.OracleApi
import Mathlib.Analysis.Convex.Deriv
import Mathlib.Analysis.Calculus.Deriv.AffineMap

namespace Verif
open Heap
open scoped InnerProductSpace

variable {C : CAS} {h h' : Heap}

theorem Heap.TripletLive.ext (e : Ext C h h') {t : Triplet} (ht : h.TripletLive t) : h'.TripletLive t :=
  ⟨e.ptLive ht.1, e.ptLive ht.2.1, e.exLive ht.2.2⟩

variable (hC : C.Lawful)
include hC

theorem ptPow_live {p : ℕ} (hp : h.PtLive p) : ∃ r h', ExRes h (ptPow C p 2 h) r h' ∧
    ∀ {E : Type} [NormedAddCommGroup E] [InnerProductSpace ℝ E] (env) (φ : PtId → E) (ψ : ExId → ℝ),
      h'.exVal env φ ψ r = ‖h.ptVal env φ p‖ ^ 2 := by
  obtain ⟨r, h', hr, hv⟩ := ptInner_live hC hp hp
  refine ⟨r, h', ⟨?_, hr.adds, hr.live⟩, ?_⟩
  · rw [ptPow, M.bind_of_ok (show M.assert (decide ((2:ℚ) = 2)) h = .ok ((), h) by simp [M.assert]), hr.run]
  · intro E _ _ env φ ψ
    rw [hv, real_inner_self_eq_norm_sq]

theorem convexPart_live {ti tj : Triplet} (hi : h.TripletLive ti) (hj : h.TripletLive tj) :
    ∃ r h', ExRes h (convexPart C ti tj h) r h' ∧
    ∀ {E : Type} [NormedAddCommGroup E] [InnerProductSpace ℝ E] (env) (φ : PtId → E) (ψ : ExId → ℝ),
      h'.exVal env φ ψ r = h.exVal env φ ψ tj.2.2 - h.exVal env φ ψ ti.2.2 +
        ⟪h.ptVal env φ tj.2.1, h.ptVal env φ ti.1 - h.ptVal env φ tj.1⟫_ℝ := by
  obtain ⟨a, h1, r1, v1⟩ := exSub_live hC hj.2.2 hi.2.2
  have e1 := ext_onlyAdds (C := C) r1.adds
  obtain ⟨d, h2, r2, v2⟩ := ptSub_live hC (e1.ptLive hi.1) (e1.ptLive hj.1)
  have e2 := ext_onlyAdds (C := C) r2.adds
  obtain ⟨b, h3, r3, v3⟩ := ptInner_live hC ((e1.trans e2).ptLive hj.2.1) r2.live
  have e3 := ext_onlyAdds (C := C) r3.adds
  obtain ⟨c, h4, r4, v4⟩ := exAdd_live hC ((e2.trans e3).exLive r1.live) r3.live
  refine ⟨c, h4, ⟨?_, ((r1.adds.trans r2.adds).trans r3.adds).trans r4.adds, r4.live⟩, ?_⟩
  · rw [convexPart, M.bind_of_ok r1.run, M.bind_of_ok r2.run, M.bind_of_ok r3.run, r4.run]
  · intro E _ _ env φ ψ
    rw [v4, v3, v2, (e2.trans e3).exVal hC r1.live.isEx, v1, e1.ptVal hC hi.1.isPt, e1.ptVal hC hj.1.isPt,
      (e1.trans e2).ptVal hC hj.2.1.isPt]

theorem smooth_live {ti tj : Triplet} {mu L : ℚ} (hL : L ≠ 0) (hmu : mu ≠ L) (hi : h.TripletLive ti) (hj : h.TripletLive tj) :
    ∃ r h', ExRes h (interpolation.smooth C ti tj mu L h) r h' ∧
    ∀ {E : Type} [NormedAddCommGroup E] [InnerProductSpace ℝ E] (env) (φ : PtId → E) (ψ : ExId → ℝ),
      h'.exVal env φ ψ r = (FnClass.smoothStrongly mu L).lhs (h.ptVal env φ ti.1) (h.ptVal env φ ti.2.1) (h.exVal env φ ψ ti.2.2)
        (h.ptVal env φ tj.1) (h.ptVal env φ tj.2.1) (h.exVal env φ ψ tj.2.2) := by
  obtain ⟨c, h1, r1, v1⟩ := convexPart_live hC hi hj
  have e1 := ext_onlyAdds (C := C) r1.adds
  obtain ⟨dg, h2, r2, v2⟩ := ptSub_live hC (e1.ptLive hi.2.1) (e1.ptLive hj.2.1)
  have e2 := e1.trans (ext_onlyAdds (C := C) r2.adds)
  obtain ⟨n, h3, r3, v3⟩ := ptPow_live hC r2.live
  have e3 := e2.trans (ext_onlyAdds (C := C) r3.adds)
  obtain ⟨q, h4, r4, v4⟩ := exScale_live hC (Sym.num (1 / (2 * L))) r3.live
  have e4 := e3.trans (ext_onlyAdds (C := C) r4.adds)
  have a14 := (r2.adds.trans r3.adds).trans r4.adds
  obtain ⟨s, h5, r5, v5⟩ := exAdd_live hC ((ext_onlyAdds (C := C) a14).exLive r1.live) r4.live
  have e5 := e4.trans (ext_onlyAdds (C := C) r5.adds)
  obtain ⟨dx, h6, r6, v6⟩ := ptSub_live hC (e5.ptLive hi.1) (e5.ptLive hj.1)
  have e6 := e5.trans (ext_onlyAdds (C := C) r6.adds)
  obtain ⟨dg', h7, r7, v7⟩ := ptSub_live hC (e6.ptLive hi.2.1) (e6.ptLive hj.2.1)
  obtain ⟨sg, h8, r8, v8⟩ := ptScale_live hC (Sym.num (1 / L)) r7.live
  have a68 := r7.adds.trans r8.adds
  obtain ⟨y, h9, r9, v9⟩ := ptSub_live hC ((ext_onlyAdds (C := C) a68).ptLive r6.live) r8.live
  obtain ⟨n2, h10, r10, v10⟩ := ptPow_live hC r9.live
  obtain ⟨q2, h11, r11, v11⟩ := exScale_live hC (Sym.num (mu / (2 * (1 - mu / L)))) r10.live
  have a5 := (((r6.adds.trans a68).trans r9.adds).trans r10.adds).trans r11.adds
  obtain ⟨z, h12, r12, v12⟩ := exAdd_live hC ((ext_onlyAdds (C := C) a5).exLive r5.live) r11.live
  have hne : 1 - mu / L ≠ 0 := by
    intro hh
    apply hmu
    field_simp at hh
    linarith
  refine ⟨z, h12, ⟨?_, (((r1.adds.trans a14).trans r5.adds).trans a5).trans r12.adds, r12.live⟩, ?_⟩
  · rw [interpolation.smooth, M.bind_of_ok r1.run, if_neg hL, M.bind_of_ok r2.run, M.bind_of_ok r3.run, M.bind_of_ok r4.run,
      M.bind_of_ok r5.run, if_neg hne, M.bind_of_ok r6.run, M.bind_of_ok r7.run, M.bind_of_ok r8.run, M.bind_of_ok r9.run,
      M.bind_of_ok r10.run, M.bind_of_ok r11.run, r12.run]
  · intro E _ _ env φ ψ
    rw [v12, v11, v10, v9, v8, v7, (ext_onlyAdds (C := C) a5).exVal hC r5.live.isEx, v5, v4, v3, v2,
      (ext_onlyAdds (C := C) a14).exVal hC r1.live.isEx, v1, (ext_onlyAdds (C := C) a68).ptVal hC r6.live.isPt, v6,
      e1.ptVal hC hi.2.1.isPt, e1.ptVal hC hj.2.1.isPt, e5.ptVal hC hi.1.isPt, e5.ptVal hC hj.1.isPt,
      e6.ptVal hC hi.2.1.isPt, e6.ptVal hC hj.2.1.isPt]
    simp [FnClass.lhs]

/-- the constraint generated for an ordered pair of samples has the value of the interpolation inequality -/
theorem interpolation_live {ti tj : Triplet} {cls : FnClass} (hc : cls.Computable) (hi : h.TripletLive ti) (hj : h.TripletLive tj) :
    ∃ r h', ExRes h (interpolation C cls ti tj h) r h' ∧
    ∀ {E : Type} [NormedAddCommGroup E] [InnerProductSpace ℝ E] (env) (φ : PtId → E) (ψ : ExId → ℝ),
      h'.exVal env φ ψ r = cls.lhs (h.ptVal env φ ti.1) (h.ptVal env φ ti.2.1) (h.exVal env φ ψ ti.2.2)
        (h.ptVal env φ tj.1) (h.ptVal env φ tj.2.1) (h.exVal env φ ψ tj.2.2) := by
  cases cls with
  | base => exact absurd hc id
  | convex => exact convexPart_live hC hi hj
  | smoothStrongly mu L => exact smooth_live hC hc.1 hc.2 hi hj
  | smoothConvex L =>
    obtain ⟨r, h', hr, hv⟩ := smooth_live hC (mu := 0) hc (Ne.symm hc) hi hj
    refine ⟨r, h', hr, ?_⟩
    intro E _ _ env φ ψ
    rw [hv]; simp [FnClass.lhs]
  | strongly mu =>
    obtain ⟨c, h1, r1, v1⟩ := convexPart_live hC hi hj
    have e1 := ext_onlyAdds (C := C) r1.adds
    obtain ⟨d, h2, r2, v2⟩ := ptSub_live hC (e1.ptLive hi.1) (e1.ptLive hj.1)
    obtain ⟨n, h3, r3, v3⟩ := ptPow_live hC r2.live
    obtain ⟨q, h4, r4, v4⟩ := exScale_live hC (Sym.num (mu / 2)) r3.live
    have a14 := (r2.adds.trans r3.adds).trans r4.adds
    obtain ⟨s, h5, r5, v5⟩ := exAdd_live hC ((ext_onlyAdds (C := C) a14).exLive r1.live) r4.live
    refine ⟨s, h5, ⟨?_, (r1.adds.trans a14).trans r5.adds, r5.live⟩, ?_⟩
    · rw [interpolation, M.bind_of_ok r1.run, M.bind_of_ok r2.run, M.bind_of_ok r3.run, M.bind_of_ok r4.run, r5.run]
    · intro E _ _ env φ ψ
      rw [v5, v4, v3, v2, (ext_onlyAdds (C := C) a14).exVal hC r1.live.isEx, v1, e1.ptVal hC hi.1.isPt, e1.ptVal hC hj.1.isPt]
      simp [FnClass.lhs]

omit hC

theorem lower_of_strong {E : Type} [NormedAddCommGroup E] [InnerProductSpace ℝ E] {f : E → ℝ} {G : E → E} {mu : ℝ}
    (hm : 0 ≤ mu) (hf : StrongConvexOn Set.univ mu f) (hG : ∀ x, HasFDerivAt f (innerSL ℝ (G x)) x) (x y : E) :
    f x + ⟪G x, y - x⟫_ℝ + mu / 2 * ‖y - x‖ ^ 2 ≤ f y := by
  have hcv : ConvexOn ℝ Set.univ f := strongConvexOn_zero.1 (hf.mono hm)
  refine strong_sample (F := ⟨Set.univ, f⟩) hf ⟨trivial, rfl, fun z _ => ?_⟩ trivial
  have hc : ConvexOn ℝ Set.univ (fun t : ℝ => f (AffineMap.lineMap x z t)) := by
    exact hcv.comp_affineMap (AffineMap.lineMap x z : ℝ →ᵃ[ℝ] E)
  have hd : HasDerivAt (fun t : ℝ => f (AffineMap.lineMap x z t)) ⟪G x, z - x⟫_ℝ 0 := by
    have hline : HasDerivAt (fun t : ℝ => (AffineMap.lineMap x z t : E)) (z - x) 0 := AffineMap.hasDerivAt_lineMap
    have h0 : (AffineMap.lineMap x z (0:ℝ) : E) = x := by simp
    have := (show HasFDerivAt f (innerSL ℝ (G x)) (AffineMap.lineMap x z (0:ℝ)) by rw [h0]; exact hG x).comp_hasDerivAt (0:ℝ) hline
    exact this
  have := hc.le_slope_of_hasDerivAt (x := 0) (y := 1) trivial trivial one_pos hd
  simp [slope_def_field] at this
  simp only
  linarith

/-- samples of a function of the class satisfy the inequality -/
theorem lhs_nonpos {E : Type} [NormedAddCommGroup E] [InnerProductSpace ℝ E] {d : FnDecl} (hd : d.Ok) {F : CFun E} (hF : d.Holds F)
    {xi gi xj gj : E} {fi fj : ℝ} (si : F.Sample xi gi fi) (sj : F.Sample xj gj fj) : d.cls.lhs xi gi fi xj gj fj ≤ 0 := by
  match d, hd, hF with
  | .convex r, _, hF =>
    have := sj.2.2 xi si.1
    rw [si.2.1] at this
    simp only [FnDecl.cls, FnClass.lhs]; linarith
  | .strongly mu r, _, hF =>
    have := strong_sample hF.1 sj si.1
    rw [si.2.1] at this
    simp only [FnDecl.cls, FnClass.lhs]; linarith
  | .smoothConvex (some L), hd, ⟨hdom, hcv, G, hG, hL⟩ =>
    obtain rfl := subgrad_unique hdom (hG xi) si
    obtain rfl := subgrad_unique hdom (hG xj) sj
    have hL0 : (0:ℝ) < L := by exact_mod_cast hd
    have hz : StrongConvexOn Set.univ (0:ℝ) F.f := strongConvexOn_zero.2 hcv
    have := smooth_strong hL0 (lower_of_strong le_rfl hz hG) (descent hG hL) xi xj
    rw [si.2.1, sj.2.1] at this
    simp only [FnDecl.cls, FnClass.lhs]
    simpa using this
  | .smoothStrongly mu (some L), hd, ⟨hdom, hcv, G, hG, hL⟩ =>
    obtain rfl := subgrad_unique hdom (hG xi) si
    obtain rfl := subgrad_unique hdom (hG xj) sj
    have hmL : (mu:ℝ) < L := by exact_mod_cast hd.2
    have hm0 : (0:ℝ) ≤ mu := by exact_mod_cast hd.1
    have hL0 : (0:ℝ) < L := lt_of_le_of_lt hm0 hmL
    have := smooth_strong hmL (lower_of_strong hm0 hcv hG) (descent hG hL) xi xj
    rw [si.2.1, sj.2.1] at this
    simp only [FnDecl.cls, FnClass.lhs]
    refine le_trans (le_of_eq ?_) this
    have e1 : ‖G xi - G xj - (mu:ℝ) • (xi - xj)‖ ^ 2 =
        ‖G xi - G xj‖ ^ 2 - 2 * mu * ⟪G xi - G xj, xi - xj⟫_ℝ + mu ^ 2 * ‖xi - xj‖ ^ 2 := by
      rw [norm_sub_sq_real, inner_smul_right, norm_smul, mul_pow, Real.norm_eq_abs, sq_abs]; ring
    have e2 : ‖xi - xj - (1 / (L:ℝ)) • (G xi - G xj)‖ ^ 2 =
        ‖xi - xj‖ ^ 2 - 2 * (1 / L) * ⟪G xi - G xj, xi - xj⟫_ℝ + (1 / L) ^ 2 * ‖G xi - G xj‖ ^ 2 := by
      rw [norm_sub_sq_real, inner_smul_right, norm_smul, mul_pow, Real.norm_eq_abs, sq_abs, real_inner_comm]; ring
    rw [e1, e2]
    have h1 : (L:ℝ) - mu ≠ 0 := by linarith [sub_pos.2 hmL] 
    have h2 : (1:ℝ) - mu / L ≠ 0 := by
      intro hh; apply h1; field_simp at hh; linarith
    have h3 : (mu:ℝ) / (2 * (1 - mu / L)) = mu * L / (2 * (L - mu)) := by
      have : (1:ℝ) - mu / L = (L - mu) / L := by field_simp
      rw [this]; field_simp
    rw [h3]
    field_simp
    ring

end Verif
