import Verif.Proofs.Dual
import Mathlib.Analysis.LocallyConvex.Separation

/-!
# Strong duality
-/

namespace Verif.Strong

variable {ι : Type} [Fintype ι]

/-- value of a linear form with coefficients `a`, `B` -/
def val (m n : ℕ) (a : ℕ → ℝ) (B : ℕ → ℕ → ℝ) (F : ℕ → ℝ) (G : ℕ → ℕ → ℝ) : ℝ :=
  ∑ k ∈ Finset.range m, a k * F k + ∑ i ∈ Finset.range n, ∑ j ∈ Finset.range n, B i j * G i j

variable {m n : ℕ}

theorem val_comb (a : ℕ → ℝ) (B : ℕ → ℕ → ℝ) (F F' : ℕ → ℝ) (G G' : ℕ → ℕ → ℝ) (s t : ℝ) :
    val m n a B (fun k => s * F k + t * F' k) (fun i j => s * G i j + t * G' i j) = s * val m n a B F G + t * val m n a B F' G' := by
  simp only [val, mul_add, Finset.sum_add_distrib, Finset.mul_sum]
  have e1 : ∀ k, a k * (s * F k) = s * (a k * F k) := fun k => by ring
  have e2 : ∀ k, a k * (t * F' k) = t * (a k * F' k) := fun k => by ring
  have e3 : ∀ i j, B i j * (s * G i j) = s * (B i j * G i j) := fun i j => by ring
  have e4 : ∀ i j, B i j * (t * G' i j) = t * (B i j * G' i j) := fun i j => by ring
  simp only [e1, e2, e3, e4]
  ring

theorem psd_comb {G G' : ℕ → ℕ → ℝ} (h : IsPSD n G) (h' : IsPSD n G') {s t : ℝ} (hs : 0 ≤ s) (ht : 0 ≤ t) :
    IsPSD n fun i j => s * G i j + t * G' i j := by
  refine ⟨fun i hi j hj => by show s * G i j + t * G' i j = s * G j i + t * G' j i; rw [h.1 i hi j hj, h'.1 i hi j hj], fun v => ?_⟩
  have : ∑ i ∈ Finset.range n, ∑ j ∈ Finset.range n, (s * G i j + t * G' i j) * v i * v j =
      s * ∑ i ∈ Finset.range n, ∑ j ∈ Finset.range n, G i j * v i * v j + t * ∑ i ∈ Finset.range n, ∑ j ∈ Finset.range n, G' i j * v i * v j := by
    simp only [Finset.mul_sum, ← Finset.sum_add_distrib]
    exact Finset.sum_congr rfl fun i _ => Finset.sum_congr rfl fun j _ => by ring
  rw [this]
  exact add_nonneg (mul_nonneg hs (h.2 v)) (mul_nonneg ht (h'.2 v))

theorem psd_zero : IsPSD n fun _ _ => 0 := ⟨fun _ _ _ _ => rfl, fun v => by simp⟩

theorem psd_rank_one (v : ℕ → ℝ) : IsPSD n fun i j => v i * v j := by
  refine ⟨fun i _ j _ => mul_comm _ _, fun w => ?_⟩
  have : ∑ i ∈ Finset.range n, ∑ j ∈ Finset.range n, v i * v j * w i * w j = (∑ i ∈ Finset.range n, v i * w i) ^ 2 := by
    rw [sq, Finset.sum_mul_sum]
    exact Finset.sum_congr rfl fun i _ => Finset.sum_congr rfl fun j _ => by ring
  rw [this]; positivity

/-- If a linear form is nonpositive wherever finitely many others are, over a free vector and a positive semidefinite matrix, and all
others are negative at one point, then it is a nonnegative combination of the others minus a positive semidefinite form. -/
theorem strong_duality (a : ι → ℕ → ℝ) (B : ι → ℕ → ℕ → ℝ) (hB : ∀ c, ∀ i < n, ∀ j < n, B c i j = B c j i) (a0 : ℕ → ℝ) (B0 : ℕ → ℕ → ℝ)
    (hB0 : ∀ i < n, ∀ j < n, B0 i j = B0 j i)
    (slater : ∃ F G, IsPSD n G ∧ ∀ c, val m n (a c) (B c) F G < 0)
    (hg : ∀ F G, IsPSD n G → (∀ c, val m n (a c) (B c) F G ≤ 0) → val m n a0 B0 F G ≤ 0) :
    ∃ lam : ι → ℝ, (∀ c, 0 ≤ lam c) ∧ (∀ k < m, ∑ c, lam c * a c k - a0 k = 0) ∧
      IsPSD n fun i j => ∑ c, lam c * B c i j - B0 i j := by
  classical
  let S : Set (ℝ × (ι → ℝ)) := {p | ∃ F G, IsPSD n G ∧ p.1 ≤ val m n a0 B0 F G ∧ ∀ c, val m n (a c) (B c) F G ≤ p.2 c}
  let O : Set (ℝ × (ι → ℝ)) := {p | 0 < p.1 ∧ ∀ c, p.2 c < 0}
  have hSconv : Convex ℝ S := by
    rintro p ⟨F, G, h1, h2, h3⟩ q ⟨F', G', h1', h2', h3'⟩ s t hs ht -
    refine ⟨fun k => s * F k + t * F' k, fun i j => s * G i j + t * G' i j, psd_comb h1 h1' hs ht, ?_, fun c => ?_⟩
    · rw [val_comb]
      exact add_le_add (mul_le_mul_of_nonneg_left h2 hs) (mul_le_mul_of_nonneg_left h2' ht)
    · rw [val_comb]
      exact add_le_add (mul_le_mul_of_nonneg_left (h3 c) hs) (mul_le_mul_of_nonneg_left (h3' c) ht)
  have hOconv : Convex ℝ O := by
    have h1 : Convex ℝ {p : ℝ × (ι → ℝ) | 0 < p.1} := convex_halfSpace_gt (LinearMap.fst ℝ ℝ (ι → ℝ)).isLinear 0
    have h2 : ∀ c, Convex ℝ {p : ℝ × (ι → ℝ) | p.2 c < 0} := fun c =>
      convex_halfSpace_lt ((LinearMap.proj (R := ℝ) (φ := fun _ : ι => ℝ) c).comp (LinearMap.snd ℝ ℝ (ι → ℝ))).isLinear 0
    have : O = {p : ℝ × (ι → ℝ) | 0 < p.1} ∩ ⋂ c, {p : ℝ × (ι → ℝ) | p.2 c < 0} := by ext p; simp [O]
    rw [this]
    exact h1.inter (convex_iInter h2)
  have hOopen : IsOpen O := by
    have : O = {p : ℝ × (ι → ℝ) | 0 < p.1} ∩ ⋂ c, {p : ℝ × (ι → ℝ) | p.2 c < 0} := by ext p; simp [O]
    rw [this]
    refine (isOpen_lt continuous_const continuous_fst).inter (isOpen_iInter_of_finite fun c => ?_)
    exact isOpen_lt ((continuous_apply c).comp continuous_snd) continuous_const
  have hdisj : Disjoint O S := by
    rw [Set.disjoint_left]
    rintro p ⟨h1, h2⟩ ⟨F, G, h3, h4, h5⟩
    exact absurd (hg F G h3 fun c => (h5 c).trans (h2 c).le) (not_le.2 (h1.trans_le h4))
  obtain ⟨f, u, hO, hS⟩ := geometric_hahn_banach_open hOconv hOopen hSconv hdisj
  -- the separating functional in coordinates
  set α := f (1, 0) with hα
  set β : ι → ℝ := fun c => f (0, Pi.single c 1) with hβ
  have hf : ∀ (t : ℝ) (w : ι → ℝ), f (t, w) = t * α + ∑ c, w c * β c := by
    intro t w
    have e : ((t, w) : ℝ × (ι → ℝ)) = t • (1, 0) + ∑ c, w c • ((0, Pi.single c 1) : ℝ × (ι → ℝ)) := by
      ext c
      · simp [Prod.fst_sum]
      · simp [Prod.snd_sum, Finset.sum_apply, Pi.single_apply]
    rw [e, map_add, map_sum, map_smul]
    simp only [map_smul, smul_eq_mul, hα, hβ]
  have hu : u ≤ 0 := by
    have := hS (0, 0) ⟨fun _ => 0, fun _ _ => 0, psd_zero, by simp [val], fun c => by simp [val]⟩
    simpa [hf] using this
  have hneg : ∀ p ∈ O, f p < 0 := fun p hp => (hO p hp).trans_le hu
  -- the functional is nonnegative on `S`, a cone
  have hcone : ∀ F G, IsPSD n G → 0 ≤ val m n a0 B0 F G * α + ∑ c, val m n (a c) (B c) F G * β c := by
    intro F G hG
    by_contra hlt
    push Not at hlt
    set q := val m n a0 B0 F G * α + ∑ c, val m n (a c) (B c) F G * β c with hq
    obtain ⟨s, hs, hsq⟩ : ∃ s : ℝ, 0 ≤ s ∧ s * q < u := by
      refine ⟨(1 - u) / (-q), div_nonneg (by linarith) (by linarith), ?_⟩
      have hq0 : q ≠ 0 := hlt.ne
      have : (1 - u) / (-q) * q = -(1 - u) := by field_simp
      rw [this]; linarith
    have := hS (s * val m n a0 B0 F G, fun c => s * val m n (a c) (B c) F G)
      ⟨fun k => s * F k + 0 * F k, fun i j => s * G i j + 0 * G i j, psd_comb hG hG hs le_rfl, by rw [val_comb]; simp,
        fun c => by rw [val_comb]; simp⟩
    rw [hf] at this
    have e : s * val m n a0 B0 F G * α + ∑ c, s * val m n (a c) (B c) F G * β c = s * q := by
      rw [hq, mul_add, Finset.mul_sum]
      simp only [mul_assoc]
    rw [e] at this
    linarith
  have hbal : ∀ t > (0 : ℝ), ∀ w : ι → ℝ, (∀ c, w c < 0) → t * α + ∑ c, w c * β c < 0 := by
    intro t ht w hw
    have := hneg (t, w) ⟨ht, hw⟩
    rwa [hf] at this
  have hβ0 : ∀ c, 0 ≤ β c := by
    intro c
    by_contra hlt
    push Not at hlt
    -- `w = -1` except at `c`, where it is very negative
    set K := α + ∑ c', -1 * β c' with hK
    have := hbal 1 one_pos (fun c' => if c' = c then -1 - (|K| + 1) / (-β c) else -1) (by
      intro c'
      have : 0 < (|K| + 1) / (-β c) := div_pos (by positivity) (by linarith)
      split
      · linarith
      · norm_num)
    have e : ∑ c', (if c' = c then -1 - (|K| + 1) / (-β c) else -1) * β c' = ∑ c', -1 * β c' + (|K| + 1) := by
      have : ∀ c', (if c' = c then -1 - (|K| + 1) / (-β c) else -1) * β c' = -1 * β c' + (if c' = c then (|K| + 1) else 0) := by
        intro c'
        split
        · rename_i h
          subst h
          have hb0 : β c' ≠ 0 := hlt.ne
          have : (|K| + 1) / (-β c') * β c' = -(|K| + 1) := by field_simp
          linarith
        · ring
      simp only [this, Finset.sum_add_distrib, Finset.sum_ite_eq', Finset.mem_univ, if_true]
    rw [e] at this
    have := neg_abs_le K
    linarith
  have hα0 : α < 0 := by
    obtain ⟨F, G, hG, hs⟩ := slater
    have hc := hcone F G hG
    have hα1 : α ≤ 0 := by
      by_contra hlt
      push Not at hlt
      have := hbal ((∑ c, β c + 1) / α) (div_pos (by have := Finset.sum_nonneg fun c (_ : c ∈ Finset.univ) => hβ0 c; linarith) hlt)
        (fun _ => -1) (fun _ => by norm_num)
      have e : (∑ c, β c + 1) / α * α = ∑ c, β c + 1 := by field_simp
      rw [e] at this
      simp only [neg_mul, one_mul, Finset.sum_neg_distrib] at this
      linarith
    rcases hα1.lt_or_eq with h | h
    · exact h
    · exfalso
      rw [h, mul_zero, zero_add] at hc
      have hz : ∀ c, val m n (a c) (B c) F G * β c = 0 := by
        have hle : ∀ c ∈ Finset.univ, val m n (a c) (B c) F G * β c ≤ 0 := fun c _ => mul_nonpos_of_nonpos_of_nonneg (hs c).le (hβ0 c)
        have h0 : ∑ c, val m n (a c) (B c) F G * β c = 0 := le_antisymm (Finset.sum_nonpos hle) hc
        intro c
        exact (Finset.sum_eq_zero_iff_of_nonpos hle).1 h0 c (Finset.mem_univ c)
      have hb : ∀ c, β c = 0 := fun c => (mul_eq_zero.1 (hz c)).resolve_left (hs c).ne
      have := hbal 1 one_pos (fun _ => -1) (fun _ => by norm_num)
      simp [h, hb] at this
  -- the multipliers
  refine ⟨fun c => β c / (-α), fun c => div_nonneg (hβ0 c) (by linarith), ?_, ?_⟩
  all_goals
    have key : ∀ F G, IsPSD n G → 0 ≤ ∑ c, β c / (-α) * val m n (a c) (B c) F G - val m n a0 B0 F G := by
      intro F G hG
      have h1 := hcone F G hG
      have e : ∑ c, β c / (-α) * val m n (a c) (B c) F G = (∑ c, val m n (a c) (B c) F G * β c) / (-α) := by
        rw [Finset.sum_div]
        exact Finset.sum_congr rfl fun c _ => by ring
      rw [e]
      have h2 : 0 ≤ (val m n a0 B0 F G * α + ∑ c, val m n (a c) (B c) F G * β c) / (-α) := div_nonneg h1 (by linarith)
      have h3 : (val m n a0 B0 F G * α + ∑ c, val m n (a c) (B c) F G * β c) / (-α) =
          (∑ c, val m n (a c) (B c) F G * β c) / (-α) - val m n a0 B0 F G := by
        have : α ≠ 0 := hα0.ne
        field_simp
        ring
      linarith
  · intro k hk
    have hF : ∀ s : ℝ, 0 ≤ s * (∑ c, β c / (-α) * a c k - a0 k) := by
      intro s
      have := key (fun k' => if k' = k then s else 0) (fun _ _ => 0) psd_zero
      simp only [val, mul_ite, mul_zero, Finset.sum_ite_eq', Finset.mem_range, hk, if_true, Finset.sum_const_zero, add_zero] at this
      rw [mul_sub, Finset.mul_sum]
      have e : ∑ c, s * (β c / (-α) * a c k) = ∑ c, β c / (-α) * (a c k * s) := Finset.sum_congr rfl fun c _ => by ring
      rw [e]; linarith
    have h1 := hF 1
    have h2 := hF (-1)
    simp only [one_mul, neg_mul] at h1 h2
    linarith
  · refine ⟨fun i hi j hj => by simp only [hB _ i hi j hj, hB0 i hi j hj], fun v => ?_⟩
    have := key (fun _ => 0) (fun i j => v i * v j) (psd_rank_one v)
    simp only [val, mul_zero, Finset.sum_const_zero, zero_add] at this
    have e : ∑ i ∈ Finset.range n, ∑ j ∈ Finset.range n, (∑ c, β c / (-α) * B c i j - B0 i j) * v i * v j =
        ∑ c, β c / (-α) * ∑ i ∈ Finset.range n, ∑ j ∈ Finset.range n, B c i j * (v i * v j) -
          ∑ i ∈ Finset.range n, ∑ j ∈ Finset.range n, B0 i j * (v i * v j) := by
      simp only [Finset.mul_sum]
      rw [Finset.sum_comm (s := Finset.univ), ← Finset.sum_sub_distrib]
      refine Finset.sum_congr rfl fun i _ => ?_
      rw [Finset.sum_comm (s := Finset.univ), ← Finset.sum_sub_distrib]
      refine Finset.sum_congr rfl fun j _ => ?_
      rw [sub_mul, sub_mul, Finset.sum_mul, Finset.sum_mul]
      congr 1
      · exact Finset.sum_congr rfl fun c _ => by ring
      · ring
    rw [e]; exact this

theorem strong_duality' (a : ι → ℕ → ℝ) (B : ι → ℕ → ℕ → ℝ) (hB : ∀ c, ∀ i < n, ∀ j < n, B c i j = B c j i) (a0 : ℕ → ℝ) (B0 : ℕ → ℕ → ℝ)
    (hB0 : ∀ i < n, ∀ j < n, B0 i j = B0 j i)
    (slater : ∃ F G, IsPSD n G ∧ ∀ c, ((∀ k < m, a c k = 0) ∧ ∀ i < n, ∀ j < n, B c i j = 0) ∨ val m n (a c) (B c) F G < 0)
    (hg : ∀ F G, IsPSD n G → (∀ c, val m n (a c) (B c) F G ≤ 0) → val m n a0 B0 F G ≤ 0) :
    ∃ lam : ι → ℝ, (∀ c, 0 ≤ lam c) ∧ (∀ k < m, ∑ c, lam c * a c k - a0 k = 0) ∧
      IsPSD n fun i j => ∑ c, lam c * B c i j - B0 i j := by
  classical
  let P : ι → Prop := fun c => ¬ ((∀ k < m, a c k = 0) ∧ ∀ i < n, ∀ j < n, B c i j = 0)
  have hz : ∀ c, ¬ P c → ∀ F G, val m n (a c) (B c) F G = 0 := by
    intro c hc F G
    obtain ⟨h1, h2⟩ := not_not.1 hc
    rw [val, Finset.sum_eq_zero fun k hk => by rw [h1 k (Finset.mem_range.1 hk), zero_mul],
      Finset.sum_eq_zero fun i hi => Finset.sum_eq_zero fun j hj => by rw [h2 i (Finset.mem_range.1 hi) j (Finset.mem_range.1 hj), zero_mul], add_zero]
  obtain ⟨F0, G0, hG0, hs⟩ := slater
  obtain ⟨lam, h1, h2, h3⟩ := strong_duality (m := m) (n := n) (fun c : {c // P c} => a c) (fun c => B c) (fun c => hB c) a0 B0 hB0
    ⟨F0, G0, hG0, fun c => (hs c).resolve_left c.2⟩ (fun F G hG h => hg F G hG fun c => by
      by_cases hc : P c
      · exact h ⟨c, hc⟩
      · exact (hz c hc F G).le)
  have hsum : ∀ x : ι → ℝ, ∑ c, (if h : P c then lam ⟨c, h⟩ else 0) * x c = ∑ c : {c // P c}, lam c * x c := by
    intro x
    rw [← Fintype.sum_subtype_add_sum_subtype P]
    have e1 : ∑ c : {c // ¬ P c}, (if h : P c then lam ⟨c, h⟩ else 0) * x c = 0 :=
      Finset.sum_eq_zero fun c _ => by rw [dif_neg c.2, zero_mul]
    rw [e1, add_zero]
    exact Finset.sum_congr rfl fun c _ => by rw [dif_pos c.2]
  refine ⟨fun c => if h : P c then lam ⟨c, h⟩ else 0, fun c => ?_, fun k hk => ?_, ?_⟩
  · beta_reduce
    split
    · exact h1 _
    · exact le_rfl
  · rw [hsum fun c => a c k]; exact h2 k hk
  · simp only [hsum fun c => B c _ _]; exact h3

end Verif.Strong
