import Verif.Props.CompleteProxGrad
import Verif.Props.CompleteDual
import Verif.Props.Robust
import Verif.Props.Verification
import Verif.Proofs.Hub
import Verif.Model.CircuitsDec

/-!
# C84: decentralised gradient descent has no certificate with a positive weight `eta` unless the functions are strongly convex
-/

namespace Verif
open Build
open scoped InnerProductSpace

set_option linter.unusedSimpArgs false

/-- the energy inequality of `decentralized_gradient_descent_line3` (`classical_decentral_vi.py` 14-63) is true of every run if the parameters are guaranteed -/
theorem dgdLine3_of_guaranteed {E : Type} [NormedAddCommGroup E] [InnerProductSpace ℝ E] (mu : ℚ) (L : Option ℚ) (R Cap : ℚ) (hR0 : R ≠ 0)
    {p : Name → ℝ} (hc : Guaranteed (dgdLine3 mu L R Cap).prog p)
    (f1 : CFun E) (f2 : CFun E) (f3 : CFun E) (hf_f1 : (defDecl mu L).Holds f1) (hf_f2 : (defDecl mu L).Holds f2) (hf_f3 : (defDecl mu L).Holds f3)
    {x2_star y2_star x1_star y1_star x3_star y3_star y2_star_v2 x1_1 y1_1 x2_1 y2_1 x3_1 y3_1 x1_2 y1_2 x2_2 y2_2 x3_2 y3_2 : E} {f2_star f1_star f3_star f2_star_v2 f1_1 f2_1 f3_1 f1_2 f2_2 f3_2 E_1 E_2 Delta_2 : ℝ}
    (h1 : f2.Sample x2_star y2_star f2_star)
    (h2 : f1.Prox R (x2_star) x1_star y1_star f1_star)
    (h3 : f3.Prox R (x2_star) x3_star y3_star f3_star)
    (h4 : f2.Prox (R / 2) ((2 : ℝ)⁻¹ • (x1_star + x3_star)) x2_star y2_star_v2 f2_star_v2)
    (h5 : f1.Sample x1_1 y1_1 f1_1)
    (h6 : f2.Sample x2_1 y2_1 f2_1)
    (h7 : f3.Sample x3_1 y3_1 f3_1)
    (h8 : x1_2 = x1_1 - (p "h" / Cap) • (y1_1 + (R : ℝ)⁻¹ • (x1_1 - x2_1)))
    (h9 : f1.Sample x1_2 y1_2 f1_2)
    (h10 : x2_2 = x2_1 - (p "h" / Cap) • (y2_1 + (R : ℝ)⁻¹ • (x2_1 - x1_1 + x2_1 - x3_1)))
    (h11 : f2.Sample x2_2 y2_2 f2_2)
    (h12 : x3_2 = x3_1 - (p "h" / Cap) • (y3_1 + (R : ℝ)⁻¹ • (x3_1 - x2_1)))
    (h13 : f3.Sample x3_2 y3_2 f3_2)
    (h14 : E_1 = Cap / 2 * (‖x1_1 - x1_star‖ ^ 2 + ‖x2_1 - x2_star‖ ^ 2 + ‖x3_1 - x3_star‖ ^ 2))
    (h15 : E_2 = Cap / 2 * (‖x1_2 - x1_star‖ ^ 2 + ‖x2_2 - x2_star‖ ^ 2 + ‖x3_2 - x3_star‖ ^ 2))
    (h16 : Delta_2 = p "rho" * (1 / R) * (‖x1_2 - x2_2 - (x1_star - x2_star)‖ ^ 2 + ‖x3_2 - x2_2 - (x3_star - x2_star)‖ ^ 2) +
      p "eta" * (⟪x1_2 - x1_star, y1_2 - y1_star⟫_ℝ + ⟪x2_2 - x2_star, y2_2 - y2_star⟫_ℝ + ⟪x3_2 - x3_star, y3_2 - y3_star⟫_ℝ)) :
    E_2 ≤ E_1 - Delta_2 := by
  calls_simp [dgdLine3] at hc
  have key := hc.vals (fs := fun k => [f1, f2, f3].getD k f1) (e := 14) (by safe_simp [hR0])
    (instance_of_list (.cons hf_f1 (.cons hf_f2 (.cons hf_f3 .nil))))
    ⟨fun i => [x2_star, y2_star, x1_star, y1_star, x3_star, y3_star, (2 : ℝ)⁻¹ • (x1_star + x3_star), x2_star, y2_star_v2, x1_1, y1_1, x2_1, y2_1, x3_1, y3_1, x1_2, y1_2, x2_2, y2_2, x3_2, y3_2].getD i 0,
      fun i => [f2_star, f1_star, f3_star, f2_star_v2, 0, f1_1, f2_1, f3_1, f1_2, f2_2, f3_2, E_1, E_2, Delta_2, E_2 - (E_1 - Delta_2)].getD i 0, fun i => [Finsupp.single 0 1, Finsupp.single 1 1, Finsupp.single 2 1].getD i 0⟩
    ⟨rfl,
      rfl,
      rfl,
      trivial,
      smp h1,
      ⟨smp h2.1, by simpa [Instr.next] using h2.2⟩,
      ⟨smp h3.1, by simpa [Instr.next] using h3.2⟩,
      by simp [Instr.Meets, Instr.next],
      ⟨smp h4.1, by simpa [Instr.next] using h4.2⟩,
      by simp [Instr.Meets, Instr.next],
      trivial,
      trivial,
      smp h5,
      trivial,
      smp h6,
      trivial,
      smp h7,
      by simpa [Instr.Meets, Instr.next] using h8,
      smp h9,
      by simpa [Instr.Meets, Instr.next] using h10,
      smp h11,
      by simpa [Instr.Meets, Instr.next] using h12,
      smp h13,
      by simpa [Instr.Meets, Instr.next] using h14,
      by simpa [Instr.Meets, Instr.next] using h15,
      by simpa [Instr.Meets, Instr.next] using h16,
      rfl,
      trivial,
      trivial⟩
    (by simp [consVals]) rfl
  simp only [List.getD_cons_succ, List.getD_cons_zero] at key
  linarith

/-- a one-sided parabola of the class -/
theorem hubF_class {L : Option ℚ} (hok : (defDecl 0 L).Ok) {d : ℝ} (hd : 0 ≤ d) : ∃ l : ℚ, 0 < l ∧ (defDecl 0 L).Holds (hubF l d) := by
  cases L with
  | none =>
    refine ⟨1, one_pos, (C12_members 0 none _).2 ⟨((C12_members 0 (some 1) _).1 (hubF_holds one_pos hd)).1, by simp⟩⟩
  | some l =>
    have hl : 0 < l := by simpa [defDecl, FnDecl.Ok] using hok
    exact ⟨l, hl, hubF_holds hl hd⟩

/-- three nodes at the kinks of two one-sided parabolas, far from the equilibrium `-a`: the step crosses the kinks, and the power of the functions grows with `a`, the energy decrease does not -/
theorem dgdLine3_eta {L : Option ℚ} {R Cap : ℚ} (hok : (defDecl 0 L).Ok) (hR : 0 < R) (hCap : 0 < Cap) {p : Name → ℝ} (hh : 0 < p "h") (hc : Guaranteed (dgdLine3 0 L R Cap).prog p) :
    p "eta" ≤ 0 := by
  have hR' : (0 : ℝ) < R := by exact_mod_cast hR
  have hC' : (0 : ℝ) < Cap := by exact_mod_cast hCap
  obtain ⟨t, ht⟩ : ∃ t, t = p "h" / Cap := ⟨_, rfl⟩
  have ht0 : 0 < t := by rw [ht]; positivity
  obtain ⟨l, hl, hH⟩ := hubF_class hok ht0.le
  have hl' : (0 : ℝ) < l := by exact_mod_cast hl
  have hz : ∀ x, (linFun 0).Sample x 0 0 := fun x => by simpa using linFun_sample 0 x
  have hk : ∀ x ≤ 0, (hubF l t).Sample x 0 0 := fun x hx => hubF_sample hl'.le ht0.le (by rw [max_eq_right hx, max_eq_right (by linarith)]; ring)
    (by rw [max_eq_right hx, max_eq_right (by linarith)]; ring)
  have hk2 : (hubF l t).Sample t (l * t) (l / 2 * t ^ 2) := hubF_sample hl'.le ht0.le (by rw [max_eq_left ht0.le]; simp) (by rw [max_eq_left ht0.le]; simp)
  have key : ∀ a : ℝ, 0 ≤ a → p "eta" * (2 * ((t + a) * (l * t))) ≤ 2 * Cap * R * t - p "rho" * (1 / R) * (2 * (3 * t - R) ^ 2) := by
    intro a ha
    have := dgdLine3_of_guaranteed 0 L R Cap hR.ne' hc (hubF l t) (linFun 0) (hubF l t) hH (linFun_holds 0 hok) hH
      (x2_star := -a) (y2_star := 0) (x1_star := -a) (y1_star := 0) (x3_star := -a) (y3_star := 0) (y2_star_v2 := 0) (x1_1 := 0) (y1_1 := 0) (x2_1 := R) (y2_1 := 0) (x3_1 := 0) (y3_1 := 0)
      (x1_2 := t) (y1_2 := l * t) (x2_2 := R - 2 * t) (y2_2 := 0) (x3_2 := t) (y3_2 := l * t)
      (hz _) ⟨hk _ (by linarith), by simp⟩ ⟨hk _ (by linarith), by simp⟩ ⟨hz _, by simp; ring⟩ (hk _ le_rfl) (hz _) (hk _ le_rfl)
      (by rw [← ht]; simp; field_simp) hk2 (by rw [← ht]; simp; field_simp; ring) (hz _) (by rw [← ht]; simp; field_simp) hk2 rfl rfl rfl
    simp only [Real.norm_eq_abs, sq_abs, sub_zero, sub_neg_eq_add, inner_zero_right, zero_add, add_zero, real_inner_comm] at this
    simp only [inner, RCLike.re_to_real, conj_trivial, star_trivial] at this
    have e : Cap / 2 * ((t + a) ^ 2 + (R - 2 * t + a) ^ 2 + (t + a) ^ 2) - Cap / 2 * (a ^ 2 + (R + a) ^ 2 + a ^ 2) = 3 * Cap * t ^ 2 - 2 * Cap * R * t := by ring
    have : 0 ≤ 3 * Cap * t ^ 2 := by positivity
    nlinarith
  by_contra hn
  rw [not_le] at hn
  obtain ⟨K, hK⟩ : ∃ K, K = 2 * Cap * R * t - p "rho" * (1 / R) * (2 * (3 * t - R) ^ 2) := ⟨_, rfl⟩
  have k0 := key 0 le_rfl
  rw [← hK] at k0
  have hK0 : 0 < K := lt_of_lt_of_le (by positivity) k0
  have k1 := key (K / (p "eta" * (2 * (l * t)))) (by positivity)
  rw [← hK] at k1
  have e : p "eta" * (2 * ((t + K / (p "eta" * (2 * (l * t)))) * (l * t))) = p "eta" * (2 * (t * (l * t))) + K := by field_simp
  rw [e] at k1
  have : 0 < p "eta" * (2 * (t * (l * t))) := by positivity
  linarith

/-- equal quadratics and the fastest mode `(1, -2, 1)` of the network -/
theorem dgdLine3_quad {mu : ℚ} {L : Option ℚ} {R Cap : ℚ} (hmu : 0 ≤ mu) (hR : 0 < R) {p : Name → ℝ} (hc : Guaranteed (dgdLine3 mu L R Cap).prog p) {c : ℝ} (hi : Inside mu L c) :
    Cap / 2 * (6 * (1 - p "h" / Cap * (c + 3 / R)) ^ 2) + (p "rho" * (1 / R) * (18 * (1 - p "h" / Cap * (c + 3 / R)) ^ 2) + p "eta" * (6 * c * (1 - p "h" / Cap * (c + 3 / R)) ^ 2))
      ≤ Cap / 2 * 6 := by
  have hR' : (0 : ℝ) < R := by exact_mod_cast hR
  have hc0 : 0 < c := lt_of_le_of_lt (by exact_mod_cast hmu) hi.1
  obtain ⟨m, hm⟩ : ∃ m, m = 1 - p "h" / Cap * (c + 3 / R) := ⟨_, rfl⟩
  have := dgdLine3_of_guaranteed mu L R Cap hR.ne' hc (quadF c 0) (quadF c 0) (quadF c 0) (quadF_holds hmu hi 0) (quadF_holds hmu hi 0) (quadF_holds hmu hi 0)
    (x2_star := 0) (y2_star := 0) (x1_star := 0) (y1_star := 0) (x3_star := 0) (y3_star := 0) (y2_star_v2 := 0) (x1_1 := 1) (y1_1 := c * 1) (x2_1 := -2) (y2_1 := c * -2) (x3_1 := 1)
    (y3_1 := c * 1) (x1_2 := m) (y1_2 := c * m) (x2_2 := -2 * m) (y2_2 := c * (-2 * m)) (x3_2 := m) (y3_2 := c * m)
    (quadF_smp0 hc0) ⟨quadF_smp0 hc0, by simp⟩ ⟨quadF_smp0 hc0, by simp⟩ ⟨quadF_smp0 hc0, by simp⟩ (quadF_smp hc0 _) (quadF_smp hc0 _) (quadF_smp hc0 _)
    (by rw [hm]; simp; field_simp; norm_num) (quadF_smp hc0 _) (by rw [hm]; simp; field_simp; ring) (quadF_smp hc0 _) (by rw [hm]; simp; field_simp; norm_num) (quadF_smp hc0 _) rfl rfl rfl
  simp only [Real.norm_eq_abs, sq_abs, sub_zero] at this
  simp only [inner, RCLike.re_to_real, conj_trivial, star_trivial] at this
  rw [← hm]
  nlinarith

/-- with weights that are not negative, a guaranteed step is at most the classical one -/
theorem dgdLine3_step {mu L R Cap : ℚ} (hmu : 0 ≤ mu) (hL : mu < L) (hR : 0 < R) (hCap : 0 < Cap) {p : Name → ℝ} (he : 0 ≤ p "eta") (hr : 0 ≤ p "rho")
    (hc : Guaranteed (dgdLine3 mu (some L) R Cap).prog p) : p "h" * (L + 3 / R) ≤ 2 * Cap := by
  have hR' : (0 : ℝ) < R := by exact_mod_cast hR
  have hC' : (0 : ℝ) < Cap := by exact_mod_cast hCap
  have hmu' : (0 : ℝ) ≤ mu := by exact_mod_cast hmu
  have hcl : IsClosed {c : ℝ | p "h" * (c + 3 / R) ≤ 2 * Cap} := isClosed_le (by fun_prop) continuous_const
  have hmL : (mu : ℝ) < L := by exact_mod_cast hL
  refine closure_minimal (s := Set.Ioo (mu : ℝ) L) ?_ hcl (by rw [closure_Ioo hmL.ne]; exact ⟨hmL.le, le_rfl⟩)
  rintro c ⟨hc1, hc2⟩
  have hc0 : 0 < c := lt_of_le_of_lt hmu' hc1
  have := dgdLine3_quad hmu hR hc (c := c) ⟨hc1, by simpa using hc2⟩
  obtain ⟨m, hm⟩ : ∃ m, m = 1 - p "h" / Cap * (c + 3 / R) := ⟨_, rfl⟩
  rw [← hm] at this
  have a1 : 0 ≤ p "rho" * (1 / R) * (18 * m ^ 2) := by positivity
  have a2 : 0 ≤ p "eta" * (6 * c * m ^ 2) := by positivity
  have a3 : m ^ 2 ≤ 1 := by
    have : (3 * Cap : ℝ) * m ^ 2 ≤ 3 * Cap * 1 := by linarith
    exact le_of_mul_le_mul_left this (by positivity)
  have a4 : -1 ≤ m := by nlinarith
  change p "h" * (c + 3 / R) ≤ 2 * Cap
  have a5 : p "h" / Cap * (c + 3 / R) ≤ 2 := by linarith
  have a6 : p "h" / Cap * (c + 3 / R) = p "h" * (c + 3 / R) / Cap := by ring
  rwa [a6, div_le_iff₀ hC'] at a5

/-- **C84** for `decentralized_gradient_descent_line3` (`classical_decentral_vi.py` 14-63) in verification mode, with `L`-smooth convex functions that need not be strongly convex, for all `L`,
resistances and capacities, and a dictionary whose values are not negative: if PEPit's worst case is 0 then `eta = 0` and `h (L + 3 / R) ≤ 2 Capacitance`.  With `rho = 0` the converse holds. -/
theorem C84_dgdLine3 {L R Cap : ℚ} (hL : 0 < L) (hR : 0 < R) (hCap : 0 < Cap) {res : Dict Name ℝ} {P : PepProblem} (hP : (Circuit.dgdLine3 0 (some L) R Cap).verify res = .ok P)
    (hh : 0 ≤ P.value "h") (he : 0 ≤ P.value "eta") (hr : 0 ≤ P.value "rho") :
    (P.worstCase = 0 → P.value "eta" = 0 ∧ P.value "h" * (L + 3 / R) ≤ 2 * Cap) ∧
      (P.value "rho" = 0 → (P.worstCase = 0 ↔ P.value "eta" = 0 ∧ P.value "h" * (L + 3 / R) ≤ 2 * Cap)) := by
  have hok := defDecl_ok (mu := 0) le_rfl hL
  have hw := C73_worst_case hP (by
    change ∀ d ∈ decls (dgdLine3 0 (some L) R Cap).prog, d.Ok
    calls_simp [dgdLine3]
    simp [decls, hok])
  have hfwd : P.worstCase = 0 → P.value "eta" = 0 ∧ P.value "h" * (L + 3 / R) ≤ 2 * Cap := by
    intro h0
    have hc : Guaranteed (dgdLine3 0 (some L) R Cap).prog P.value := by
      rcases hw with ⟨-, h⟩ | ⟨h, -⟩
      · exact h
      · rw [h0] at h; cases h
    refine ⟨le_antisymm ?_ he, dgdLine3_step le_rfl hL hR hCap he hr hc⟩
    rcases hh.eq_or_lt with h1 | h1
    · obtain ⟨c, hc1, hc2⟩ := exists_between (show (0 : ℝ) < L by exact_mod_cast hL)
      have := dgdLine3_quad le_rfl hR hc (c := c) ⟨by simpa using hc1, by simpa using hc2⟩
      rw [← h1] at this
      simp only [zero_div, zero_mul, sub_zero, one_pow, mul_one] at this
      have hR' : (0 : ℝ) < R := by exact_mod_cast hR
      have a1 : 0 ≤ P.value "rho" * (1 / R) * 18 := by positivity
      by_contra hn
      rw [not_le] at hn
      have : 0 < P.value "eta" * (6 * c) := by positivity
      linarith
    · exact dgdLine3_eta hok hR hCap h1 hc
  refine ⟨hfwd, fun hr0 => ⟨hfwd, fun ⟨h1, h2⟩ => ?_⟩⟩
  rcases hw with ⟨h, -⟩ | ⟨-, h⟩
  · exact h
  · have hg : Guaranteed (dgdLine3 0 (some L) R Cap).prog P.value := C64_dgdLine3_guaranteed L R Cap hL hR hCap hh h2 h1 hr0
    exact (h hg).elim

/-- a dictionary that is accepted: `L = R = 1`, `Capacitance = 2`, the largest step `h = 1` -/
example : ∃ P, (Circuit.dgdLine3 0 (some 1) 1 2).verify [("h", 1), ("alpha", 0), ("beta", 0), ("eta", 0), ("rho", 0)] = .ok P ∧ P.worstCase = 0 := by
  obtain ⟨⟨r, h⟩, hr⟩ := (C04_errors refCAS_lawful (Circuit.dgdLine3 0 (some 1) 1 2).prog Heap.empty).2 (by change SafeProg (dgdLine3 0 (some 1) 1 2).prog _ = true; calls_simp [dgdLine3]; safe_simp [])
  obtain ⟨P, hP, -, hv⟩ := C73_builds (c := .dgdLine3 0 (some 1) 1 2) (params := [("h", 1), ("alpha", 0), ("beta", 0), ("eta", 0), ("rho", 0)]) hr (by simp [Circuit.IsDual])
    (by simp [Circuit.keys, Dict.get?])
  simp [Circuit.keys, Dict.get?] at hv
  refine ⟨P, hP, ((C84_dgdLine3 one_pos one_pos two_pos hP (by rw [← hv.1]; norm_num) (by rw [← hv.2.2.2.1]) (by rw [← hv.2.2.2.2])).2 hv.2.2.2.2.symm).2 ⟨hv.2.2.2.1.symm, ?_⟩⟩
  rw [← hv.1]
  norm_num

/-- the same step with a small weight `eta` is refused -/
example : ∃ P, (Circuit.dgdLine3 0 (some 1) 1 2).verify [("h", 1), ("alpha", 0), ("beta", 0), ("eta", 1 / 1000), ("rho", 0)] = .ok P ∧ P.worstCase ≠ 0 := by
  obtain ⟨⟨r, h⟩, hr⟩ := (C04_errors refCAS_lawful (Circuit.dgdLine3 0 (some 1) 1 2).prog Heap.empty).2 (by change SafeProg (dgdLine3 0 (some 1) 1 2).prog _ = true; calls_simp [dgdLine3]; safe_simp [])
  obtain ⟨P, hP, -, hv⟩ := C73_builds (c := .dgdLine3 0 (some 1) 1 2) (params := [("h", 1), ("alpha", 0), ("beta", 0), ("eta", 1 / 1000), ("rho", 0)]) hr (by simp [Circuit.IsDual])
    (by simp [Circuit.keys, Dict.get?])
  simp [Circuit.keys, Dict.get?] at hv
  refine ⟨P, hP, fun h0 => ?_⟩
  have := ((C84_dgdLine3 one_pos one_pos two_pos hP (by rw [← hv.1]; norm_num) (by rw [← hv.2.2.2.1]; norm_num) (by rw [← hv.2.2.2.2])).1 h0).1
  rw [← hv.2.2.2.1] at this
  norm_num at this

end Verif
