import Verif.Spec.Records
import Verif.Props.DadmmConv
import Verif.Props.PgConv
import Verif.Props.Extra
import Verif.Props.Sensing

/-!
# C60: what the returned histories say about the iterations

Distances are to the reference points `x_opt_star`, relative distances to the distance of the start points (zero for `dadmm` and `pg_extra`).
-/

namespace Verif

variable {E : Type} [NormedAddCommGroup E] [InnerProductSpace ℝ E]

omit [InnerProductSpace ℝ E] in
theorem frobDist_sqrt (n : ℕ) (x y : ℕ → E) : frobDist n x y = Real.sqrt (stackDistSq n x y) := rfl

omit [InnerProductSpace ℝ E] in
theorem errorRecord_range (itr n : ℕ) (x : ℕ → ℕ → E) (x0 xstar : ℕ → E) :
    IsErrorRecord itr (fun k => Real.sqrt (stackDistSq n (x k) xstar)) (Real.sqrt (stackDistSq n x0 xstar))
      ((List.range itr).map fun k => frobDist n (x k) xstar) ((List.range itr).map fun k => frobDist n (x k) xstar / frobDist n x0 xstar) := by
  refine ⟨by simp, by simp, fun k v h => ?_, fun h0 k w h => ?_⟩
  · rw [List.getElem?_map, Option.map_eq_some_iff] at h
    obtain ⟨k', hk, rfl⟩ := h
    obtain ⟨hk1, rfl⟩ := List.getElem?_eq_some_iff.1 hk
    rw [List.getElem_range]
    rfl
  · rw [List.getElem?_map, Option.map_eq_some_iff] at h
    obtain ⟨k', hk, rfl⟩ := h
    obtain ⟨hk1, rfl⟩ := List.getElem?_eq_some_iff.1 hk
    rw [List.getElem_range, frobDist_sqrt n x0 xstar, div_mul_cancel₀ _ h0]
    rfl

theorem range_map_prefix {α : Type} {m m' : ℕ} (h : m ≤ m') (f : ℕ → α) : (List.range m).map f <+: (List.range m').map f := by
  obtain ⟨d, rfl⟩ := Nat.exists_eq_add_of_le h
  rw [List.range_add, List.map_append]
  exact List.prefix_append _ _

/-- **C60** for `dadmm`: the lists have one entry for every iteration, `const_vio` none; entry `k` is about the points after `k + 1` iterations:
their distance to `x_opt_star`, that distance divided by `‖x_opt_star‖`, and the error of the value divided by `f_star`. -/
theorem C60_dadmm {a : Dadmm ℝ} {n itr : ℕ} {G : NxGraph} {xstar : ℕ → E} {fstar : ℝ} {prox : ℕ → E → ℝ → E} {f : ℕ → E → ℝ} {res : DadmmResult}
    (h : dadmm a n itr G xstar fstar prox f = .ok res) : ∃ st, a.run n itr G prox = .ok st ∧
      IsErrorRecord itr (fun k => Real.sqrt (stackDistSq n (st (k + 1)).x xstar)) (Real.sqrt (∑ j ∈ Finset.range n, ‖xstar j‖ ^ 2))
        res.errOptStar res.errOptReldiff ∧ res.constVio = [] ∧ res.fReldiff.length = itr ∧
      ∀ (k : ℕ) (v : ℝ), res.fReldiff[k]? = some v → fstar ≠ 0 → v * fstar = |∑ j ∈ Finset.range n, f j ((st (k + 1)).x j) - fstar| := by
  unfold dadmm at h
  cases hr : a.run n itr G prox with
  | error e => rw [hr] at h; simp [bind, Except.bind] at h
  | ok st =>
    rw [hr] at h
    simp only [bind, Except.bind, pure, Except.pure, Except.ok.injEq] at h
    subst h
    refine ⟨st, rfl, ?_, rfl, by simp, fun k v hk h0 => ?_⟩
    · have := errorRecord_range itr n (fun k => (st (k + 1)).x) (fun _ => 0) xstar
      simpa [stackDistSq] using this
    · rw [List.getElem?_map, Option.map_eq_some_iff] at hk
      obtain ⟨k', hk, rfl⟩ := hk
      obtain ⟨hk1, rfl⟩ := List.getElem?_eq_some_iff.1 hk
      rw [List.getElem_range, div_mul_cancel₀ _ h0, abs_sub_comm]

/-- **C60** for `dadmm`: a shorter run returns the beginnings of the lists of a longer run. -/
theorem C60_dadmm_prefix {a : Dadmm ℝ} {n itr itr' : ℕ} {G : NxGraph} {xstar : ℕ → E} {fstar : ℝ} {prox : ℕ → E → ℝ → E} {f : ℕ → E → ℝ}
    {res' : DadmmResult} (hle : itr ≤ itr') (h : dadmm a n itr' G xstar fstar prox f = .ok res') :
    ∃ res, dadmm a n itr G xstar fstar prox f = .ok res ∧ res.errOptStar <+: res'.errOptStar ∧ res.errOptReldiff <+: res'.errOptReldiff ∧
      res.constVio <+: res'.constVio ∧ res.fReldiff <+: res'.fReldiff := by
  unfold dadmm at h ⊢
  cases hr : a.run n itr' G prox with
  | error e => rw [hr] at h; simp [bind, Except.bind] at h
  | ok st =>
    have hr' : a.run n itr G prox = .ok st := by
      obtain ⟨adj, h1, h2, h3⟩ := Dadmm.run_iff.1 hr
      exact Dadmm.run_iff.2 ⟨adj, h1, fun hi => h2 (by omega), h3⟩
    rw [hr] at h
    rw [hr']
    simp only [bind, Except.bind, pure, Except.pure, Except.ok.injEq] at h
    subst h
    exact ⟨_, rfl, range_map_prefix hle _, range_map_prefix hle _, List.prefix_rfl, range_map_prefix hle _⟩

/-- **C60**: for a negative optimal value `dadmm` records relative value errors that are never positive (smaller is worse). -/
theorem C60_dadmm_sign {a : Dadmm ℝ} {n itr : ℕ} {G : NxGraph} {xstar : ℕ → E} {fstar : ℝ} {prox : ℕ → E → ℝ → E} {f : ℕ → E → ℝ}
    {res : DadmmResult} (h : dadmm a n itr G xstar fstar prox f = .ok res) : ∀ v ∈ res.fReldiff, (0 < fstar → 0 ≤ v) ∧ (fstar < 0 → v ≤ 0) := by
  obtain ⟨st, -, -, -, -, hf⟩ := C60_dadmm h
  intro v hv
  obtain ⟨k, hk⟩ := List.mem_iff_getElem?.1 hv
  constructor
  · intro h0
    have := hf k v hk h0.ne'
    by_contra hneg
    nlinarith [abs_nonneg (∑ j ∈ Finset.range n, f j ((st (k + 1)).x j) - fstar)]
  · intro h0
    have := hf k v hk h0.ne
    by_contra hneg
    nlinarith [abs_nonneg (∑ j ∈ Finset.range n, f j ((st (k + 1)).x j) - fstar)]

/-- **C60** for `pg_extra`: as for `dadmm`; in addition entry `k` of `op_norm` is the squared distance of the points after `k` and `k + 1`
iterations; the relative value errors are never negative. -/
theorem C60_pgExtra {a : PgExtra ℝ} {n itr : ℕ} {W : ℕ → ℕ → ℝ} {G : NxGraph} {xstar : ℕ → E} {fstar : ℝ} {prox : ℕ → E → ℝ → E} {grad : ℕ → E → E}
    {fh : ℕ → E → ℝ} {res : PgResult} (h : pgExtra a n itr W G xstar fstar prox grad fh = .ok res) : ∃ st, a.run n itr W G prox grad = .ok st ∧
      IsErrorRecord itr (fun k => Real.sqrt (stackDistSq n (st (k + 1)).x xstar)) (Real.sqrt (∑ j ∈ Finset.range n, ‖xstar j‖ ^ 2))
        res.errOptStar res.errOptReldiff ∧ res.constVio = [] ∧ res.fReldiff.length = itr ∧ res.opNorm.length = itr ∧
      (∀ (k : ℕ) (v : ℝ), res.fReldiff[k]? = some v → 0 ≤ v ∧
        (fstar ≠ 0 → v * |fstar| = |∑ j ∈ Finset.range n, fh j ((st (k + 1)).x j) - fstar|)) ∧
      ∀ (k : ℕ) (v : ℝ), res.opNorm[k]? = some v → v = stackDistSq n (st (k + 1)).x (st k).x := by
  unfold pgExtra at h
  cases hr : a.run n itr W G prox grad with
  | error e => rw [hr] at h; simp [bind, Except.bind] at h
  | ok st =>
    rw [hr] at h
    simp only [bind, Except.bind, pure, Except.pure, Except.ok.injEq] at h
    subst h
    refine ⟨st, rfl, ?_, rfl, by simp, by simp, fun k v hk => ?_, fun k v hk => ?_⟩
    · have := errorRecord_range itr n (fun k => (st (k + 1)).x) (fun _ => 0) xstar
      simpa [stackDistSq] using this
    · rw [List.getElem?_map, Option.map_eq_some_iff] at hk
      obtain ⟨k', hk, rfl⟩ := hk
      obtain ⟨hk1, rfl⟩ := List.getElem?_eq_some_iff.1 hk
      rw [List.getElem_range]
      refine ⟨abs_nonneg _, fun h0 => ?_⟩
      rw [← abs_mul, div_mul_cancel₀ _ h0]
    · rw [List.getElem?_map, Option.map_eq_some_iff] at hk
      obtain ⟨k', hk, rfl⟩ := hk
      obtain ⟨hk1, rfl⟩ := List.getElem?_eq_some_iff.1 hk
      rw [List.getElem_range]
      rfl

/-- **C60** for `pg_extra`: a shorter run returns the beginnings of the lists of a longer run. -/
theorem C60_pgExtra_prefix {a : PgExtra ℝ} {n itr itr' : ℕ} {W : ℕ → ℕ → ℝ} {G : NxGraph} {xstar : ℕ → E} {fstar : ℝ} {prox : ℕ → E → ℝ → E}
    {grad : ℕ → E → E} {fh : ℕ → E → ℝ} {res' : PgResult} (hle : itr ≤ itr') (h : pgExtra a n itr' W G xstar fstar prox grad fh = .ok res') :
    ∃ res, pgExtra a n itr W G xstar fstar prox grad fh = .ok res ∧ res.opNorm <+: res'.opNorm ∧ res.errOptStar <+: res'.errOptStar ∧
      res.errOptReldiff <+: res'.errOptReldiff ∧ res.constVio <+: res'.constVio ∧ res.fReldiff <+: res'.fReldiff := by
  unfold pgExtra at h ⊢
  cases hr : a.run n itr' W G prox grad with
  | error e => rw [hr] at h; simp [bind, Except.bind] at h
  | ok st =>
    have hr' : a.run n itr W G prox grad = .ok st := by
      cases a with
      | plain rho => exact hr
      | parC R hh C =>
        obtain ⟨adj, h1, h2, h3⟩ := PgExtra.run_parC_iff.1 hr
        exact PgExtra.run_parC_iff.2 ⟨adj, h1, fun hi => h2 (by omega), h3⟩
    rw [hr] at h
    rw [hr']
    simp only [bind, Except.bind, pure, Except.pure, Except.ok.injEq] at h
    subst h
    exact ⟨_, rfl, range_map_prefix hle _, range_map_prefix hle _, range_map_prefix hle _, List.prefix_rfl, range_map_prefix hle _⟩

/-- **C60**, combined with C52: with one reference point `xh ≠ 0` the relative distances of `dadmm` tend to zero. -/
theorem C60_dadmm_reldiff (a : Dadmm ℝ) (n : ℕ) (G : NxGraph) (F : ℕ → CFun E) (prox : ℕ → E → ℝ → E) (xh : E) (hset : a.Setting n G F prox xh)
    (hs2 : a.usage ≤ 1) (mu : ℝ) (hmu : 0 < mu) (hF : ∀ j < n, StrongConvexOn (F j).dom mu (F j).f) (fstar : ℝ) (f : ℕ → E → ℝ)
    (hx : xh ≠ 0) (eps : ℝ) (he : 0 < eps) :
    ∃ N : ℕ, ∀ (itr : ℕ) (res : DadmmResult), dadmm a n itr G (fun _ => xh) fstar prox f = .ok res →
      ∀ (k : ℕ) (w : ℝ), N ≤ k → res.errOptReldiff[k]? = some w → |w| < eps := by
  have hs : 0 < Real.sqrt (∑ j ∈ Finset.range n, ‖xh‖ ^ 2) := by
    apply Real.sqrt_pos.2
    rw [Finset.sum_const, Finset.card_range, nsmul_eq_mul]
    have : (0 : ℝ) < n := by exact_mod_cast hset.nodes
    have := norm_pos_iff.2 hx
    positivity
  obtain ⟨N, hN⟩ := C52_errOptStar a n G F prox xh hset hs2 mu hmu hF fstar f (eps * Real.sqrt (∑ j ∈ Finset.range n, ‖xh‖ ^ 2)) (by positivity)
  refine ⟨N, fun itr res hres k w hk hw => ?_⟩
  obtain ⟨st, -, hrec, -⟩ := C60_dadmm hres
  have hlt : k < res.errOptStar.length := by
    rw [hrec.star_length, ← hrec.rel_length]
    exact (List.getElem?_eq_some_iff.1 hw).1
  have h1 := hN itr res hres k _ hk (List.getElem?_eq_getElem hlt)
  rw [hrec.star_eq k _ (List.getElem?_eq_getElem hlt), ← hrec.rel_eq hs.ne' k w hw, abs_mul, abs_of_pos hs] at h1
  exact lt_of_mul_lt_mul_right h1 hs.le

/-- **C60**, combined with C53: with one reference point `xh ≠ 0` the relative distances of `pg_extra` tend to zero. -/
theorem C60_pgExtra_reldiff (a : PgExtra ℝ) (n : ℕ) (W : ℕ → ℕ → ℝ) (G : NxGraph) (F : ℕ → CFun E) (prox : ℕ → E → ℝ → E) (H : ℕ → E → ℝ)
    (grad : ℕ → E → E) (L : ℝ) (xh : E) (hset : a.Setting n W G F prox H grad L xh) (mu : ℝ) (hmu : 0 < mu)
    (hF : ∀ j < n, StrongConvexOn (F j).dom mu (F j).f) (fstar : ℝ) (fh : ℕ → E → ℝ) (hx : xh ≠ 0) (eps : ℝ) (he : 0 < eps) :
    ∃ N : ℕ, ∀ (itr : ℕ) (res : PgResult), pgExtra a n itr W G (fun _ => xh) fstar prox grad fh = .ok res →
      ∀ (k : ℕ) (w : ℝ), N ≤ k → res.errOptReldiff[k]? = some w → |w| < eps := by
  have hs : 0 < Real.sqrt (∑ j ∈ Finset.range n, ‖xh‖ ^ 2) := by
    apply Real.sqrt_pos.2
    rw [Finset.sum_const, Finset.card_range, nsmul_eq_mul]
    have : (0 : ℝ) < n := by exact_mod_cast hset.nodes
    have := norm_pos_iff.2 hx
    positivity
  obtain ⟨N, hN⟩ := C53_errOptStar a n W G F prox H grad L xh hset mu hmu hF fstar fh (eps * Real.sqrt (∑ j ∈ Finset.range n, ‖xh‖ ^ 2)) (by positivity)
  refine ⟨N, fun itr res hres k w hk hw => ?_⟩
  obtain ⟨st, -, hrec, -⟩ := C60_pgExtra hres
  have hlt : k < res.errOptStar.length := by
    rw [hrec.star_length, ← hrec.rel_length]
    exact (List.getElem?_eq_some_iff.1 hw).1
  have h1 := hN itr res hres k _ hk (List.getElem?_eq_getElem hlt)
  rw [hrec.star_eq k _ (List.getElem?_eq_getElem hlt), ← hrec.rel_eq hs.ne' k w hw, abs_mul, abs_of_pos hs] at h1
  exact lt_of_mul_lt_mul_right h1 hs.le

/-- **C60** for `pg_extra_compressed_sensing`: the lists have one entry for every iteration; the relative distance is to the distance of the start
points; `const_vio` is a sum of squares; the relative value errors have the sign of `f_star`. -/
theorem C60_sensing {m : ℕ} {S : Type} [NormedAddCommGroup S] [InnerProductSpace ℝ S] (n itr : ℕ) (W V : ℕ → ℕ → ℝ) (sv : ℕ → ℝ)
    (A : ℕ → EuclideanSpace ℝ (Fin m) →ₗ[ℝ] S) (AT : ℕ → S →ₗ[ℝ] EuclideanSpace ℝ (Fin m)) (b : ℕ → S) (alpha rho : ℝ)
    (x0 xstar : ℕ → EuclideanSpace ℝ (Fin m)) (fstar : ℝ) :
    ∃ x : ℕ → ℕ → EuclideanSpace ℝ (Fin m), x 0 = x0 ∧
      (∀ itr' f', 2 * itr' = itr → sensingSolution n itr' W A AT b alpha rho x0 = some f' → f'.1 = x itr) ∧
      let res := pgExtraSensing n itr W V sv A AT b alpha rho x0 xstar fstar
      IsErrorRecord itr (fun k => Real.sqrt (stackDistSq n (x (k + 1)) xstar)) (Real.sqrt (stackDistSq n x0 xstar)) res.errOptStar res.errOptReldiff ∧
      res.opNorm.length = itr ∧ res.constVio.length = itr ∧ res.fReldiff.length = itr ∧
      (∀ (k : ℕ) (v : ℝ), res.constVio[k]? = some v → v = ∑ j ∈ Finset.range n, ∑ i ∈ Finset.range n, ‖A i (x (k + 1) j) - b i‖ ^ 2) ∧
      ∀ (k : ℕ) (v : ℝ), res.fReldiff[k]? = some v → fstar ≠ 0 →
        v * fstar = |∑ j ∈ Finset.range n, (1 / 2 * ‖A j (x (k + 1) j) - b j‖ ^ 2 + rho * ∑ i, |x (k + 1) j i|) - fstar| := by
  refine ⟨fun k => (sensingState n W A AT b alpha rho x0 k).x, rfl, fun itr' f' he h => ?_, errorRecord_range itr n _ x0 xstar, by simp [pgExtraSensing],
    by simp [pgExtraSensing], by simp [pgExtraSensing], fun k v hk => ?_, fun k v hk h0 => ?_⟩
  · subst he
    rw [sensingSolution, Option.map_eq_some_iff] at h
    obtain ⟨s, hs, rfl⟩ := h
    simp only [sensingState, hs, Option.getD_some]
  · simp only [pgExtraSensing] at hk
    rw [List.getElem?_map, Option.map_eq_some_iff] at hk
    obtain ⟨k', hk, rfl⟩ := hk
    obtain ⟨hk1, rfl⟩ := List.getElem?_eq_some_iff.1 hk
    rw [List.getElem_range]
  · simp only [pgExtraSensing] at hk
    rw [List.getElem?_map, Option.map_eq_some_iff] at hk
    obtain ⟨k', hk, rfl⟩ := hk
    obtain ⟨hk1, rfl⟩ := List.getElem?_eq_some_iff.1 hk
    rw [List.getElem_range, div_mul_cancel₀ _ h0, abs_sub_comm]
    rfl

omit [InnerProductSpace ℝ E] in
theorem nanRecord_of (n itr : ℕ) (st : ℕ → Option (ExtraState E)) (x0 xstar : ℕ → E) (fstar : ℝ) (f : ℕ → E → ℝ)
    (hst : ∀ k < itr, st k = none → st (k + 1) = none) : IsNanRecord itr (Real.sqrt (stackDistSq n x0 xstar)) (extraResult n itr st x0 xstar fstar f).errOptStar
      (extraResult n itr st x0 xstar fstar f).errOptReldiff (extraResult n itr st x0 xstar fstar f).fReldiff ∧
      (extraResult n itr st x0 xstar fstar f).constVio = [] := by
  have key : ∀ {β : Type} (g : ExtraState E → β) (k : ℕ), ((List.range itr).map fun k => (st (k + 1)).map g)[k]? = some none ↔ k < itr ∧ st (k + 1) = none := by
    intro β g k
    rw [List.getElem?_map]
    by_cases hk : k < itr
    · rw [List.getElem?_range hk]
      simp [hk]
    · rw [List.getElem?_eq_none (by simpa using hk)]
      simp [hk]
  refine ⟨⟨by simp [extraResult], fun k => (key _ k).trans (key _ k).symm, fun k => (key _ k).trans (key _ k).symm, fun k l hkl hl h => ?_, fun h0 k v w hv hw => ?_⟩, rfl⟩
  · refine (key _ l).2 ⟨hl, ?_⟩
    have h1 := ((key _ k).1 h).2
    induction l, hkl using Nat.le_induction with
    | base => exact h1
    | succ l hle ih => exact hst _ (by omega) (ih (by omega))
  · simp only [extraResult] at hv hw
    rw [List.getElem?_map, Option.map_eq_some_iff] at hv hw
    obtain ⟨k1, hk1, h1⟩ := hv
    obtain ⟨k2, hk2, h2⟩ := hw
    obtain rfl : k1 = k2 := by rw [hk1] at hk2; injection hk2
    rw [Option.map_eq_some_iff] at h1 h2
    obtain ⟨s1, hs1, rfl⟩ := h1
    obtain ⟨s2, hs2, rfl⟩ := h2
    obtain rfl : s1 = s2 := by rw [hs1] at hs2; injection hs2
    exact ⟨Real.sqrt_nonneg _, by rw [frobDist_sqrt n x0 xstar, div_mul_cancel₀ _ h0]⟩

/-- **C60** for the geometric median -/
theorem C60_median (n itr : ℕ) (W : ℕ → ℕ → ℝ) (b c : ℕ → E) (theta rho : ℝ) (xstar : ℕ → E) (fstar : ℝ) :
    (IsNanRecord itr (Real.sqrt (stackDistSq n b xstar)) (pExtraMedian n itr W b c theta rho xstar fstar).errOptStar
      (pExtraMedian n itr W b c theta rho xstar fstar).errOptReldiff (pExtraMedian n itr W b c theta rho xstar fstar).fReldiff ∧
      (pExtraMedian n itr W b c theta rho xstar fstar).constVio = []) ∧
    ∀ itr' ≤ itr, (pExtraMedian n itr' W b c theta rho xstar fstar).errOptStar <+: (pExtraMedian n itr W b c theta rho xstar fstar).errOptStar ∧
      (pExtraMedian n itr' W b c theta rho xstar fstar).errOptReldiff <+: (pExtraMedian n itr W b c theta rho xstar fstar).errOptReldiff ∧
      (pExtraMedian n itr' W b c theta rho xstar fstar).fReldiff <+: (pExtraMedian n itr W b c theta rho xstar fstar).fReldiff := by
  refine ⟨nanRecord_of n itr _ b xstar fstar _ fun k _ hk => ?_, fun itr' h => ⟨range_map_prefix h _, range_map_prefix h _, range_map_prefix h _⟩⟩
  rw [extraStates, hk]
  rfl

/-- **C60** for the mixed problem: as for the geometric median, if `np.linalg.solve` does not raise -/
theorem C60_anorm (solve : (E →ₗ[ℝ] E) → E → Except Err E) (n itr : ℕ) (W : ℕ → ℕ → ℝ) (b : ℕ → E) (P : ℕ → E →ₗ[ℝ] E) (rho : ℝ)
    (xstar : ℕ → E) (fstar : ℝ) (res : ExtraResult) (h : pExtraAnorm solve n itr W b P rho xstar fstar = .ok res) :
    IsNanRecord itr (Real.sqrt (stackDistSq n b xstar)) res.errOptStar res.errOptReldiff res.fReldiff ∧ res.constVio = [] := by
  unfold pExtraAnorm at h
  have hmono : ∀ k o, anormStates n W (anormProx solve b P rho) b (k + 1) = .ok o → ∃ o', anormStates n W (anormProx solve b P rho) b k = .ok o' := by
    intro k o hk
    rw [anormStates] at hk
    split at hk
    · cases hk
    · rename_i h1; exact ⟨_, h1⟩
    · rename_i h1; exact ⟨_, h1⟩
  have hall : ∀ m o, anormStates n W (anormProx solve b P rho) b m = .ok o → ∀ k ≤ m, ∃ o', anormStates n W (anormProx solve b P rho) b k = .ok o' := by
    intro m
    induction m with
    | zero => intro o ho k hk; exact ⟨o, by rwa [Nat.le_zero.1 hk]⟩
    | succ m ih =>
      intro o ho k hk
      rcases Nat.lt_or_ge k (m + 1) with h1 | h1
      · obtain ⟨o', ho'⟩ := hmono m o ho
        exact ih o' ho' k (by omega)
      · obtain rfl : k = m + 1 := by omega
        exact ⟨o, ho⟩
  split at h
  · cases h
  · rename_i o ho
    injection h with h
    subst h
    refine nanRecord_of n itr _ b xstar fstar _ fun k hk hnone => ?_
    obtain ⟨o', ho'⟩ := hall itr o ho k hk.le
    simp only [ho'] at hnone
    subst hnone
    have : anormStates n W (anormProx solve b P rho) b (k + 1) = .ok none := by rw [anormStates, ho']
    simp only [this]

/-- non-vacuity: a run of `dadmm` on the six-node graph with negative `f_star`: one thousand entries, none positive -/
example : ∃ res, dadmm (Dadmm.circuit 2 3 4) 6 1000 graph6 (fun _ => (5 / 2 : ℝ)) (-1) (fun j z rho => (z + rho * (j : ℝ)) / (1 + rho)) (fun j x => (x - j) ^ 2) = .ok res ∧
    res.fReldiff.length = 1000 ∧ ∀ v ∈ res.fReldiff, v ≤ 0 := by
  obtain ⟨st, hst⟩ := run_graph6 (Dadmm.circuit 2 3 4) 1000 (fun j z rho => (z + rho * (j : ℝ)) / (1 + rho))
  have : ∃ res, dadmm (Dadmm.circuit 2 3 4) 6 1000 graph6 (fun _ => (5 / 2 : ℝ)) (-1) (fun j z rho => (z + rho * (j : ℝ)) / (1 + rho)) (fun j x => (x - j) ^ 2) = .ok res := by
    unfold dadmm
    rw [hst]
    exact ⟨_, rfl⟩
  obtain ⟨res, h⟩ := this
  obtain ⟨-, -, -, -, h1, -⟩ := C60_dadmm h
  exact ⟨res, h, h1, fun v hv => (C60_dadmm_sign h v hv).2 (by norm_num)⟩

end Verif
