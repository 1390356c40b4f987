import Verif.Proofs.Weights
import Verif.Proofs.PgExtra

/-!
# C46: the mixing matrices of the experiments

Axioms of every theorem: propext, Classical.choice, Quot.sound.
-/

namespace Verif
open scoped InnerProductSpace

section
variable {K : Type} [Field K]

/-- **C46**, success: the matrix is built exactly when all ends of edges are labels between 1 and `n`. -/
theorem C46_ok (n : ℕ) (G : NxGraph) (hG : G.Simple) :
    (∃ W, (mhWeights n G : Except Err (ℕ → ℕ → K)) = .ok W) ↔ ∀ u v, G.IsEdge u v → 1 ≤ u ∧ u ≤ n := by
  constructor
  · rintro ⟨W, h⟩ u v huv
    have := (mhWeights_entries hG h).1 u v huv
    exact ⟨this.1, this.2.1⟩
  · intro h
    unfold mhWeights
    rw [if_pos]
    · exact ⟨_, rfl⟩
    · simp only [List.all_eq_true, decide_eq_true_eq]
      rintro ⟨u, v⟩ he
      have h1 := (NxGraph.isEdge_iff_edges hG u v).2 (Or.inl he)
      have h2 := h u v h1
      have h3 := h v u (hG.symm _ _ h1)
      exact ⟨h2.1, h2.2, h3.1, h3.2⟩

/-- **C46**, symmetry -/
theorem C46_symmetric (n : ℕ) (G : NxGraph) (hG : G.Simple) (W : ℕ → ℕ → K) (h : mhWeights n G = .ok W) (j l : ℕ) : W j l = W l j := by
  obtain ⟨-, h1, -⟩ := mhWeights_entries hG h
  by_cases hjl : j = l
  · rw [hjl]
  · rw [h1 j l hjl, h1 l j (Ne.symm hjl), mhValue_comm]
    by_cases he : G.IsEdge (j + 1) (l + 1)
    · rw [if_pos he, if_pos (hG.symm _ _ he)]
    · rw [if_neg he, if_neg fun h => he (hG.symm _ _ h)]

/-- **C46**, rows -/
theorem C46_rows (n : ℕ) (G : NxGraph) (hG : G.Simple) (W : ℕ → ℕ → K) (h : mhWeights n G = .ok W) (j : ℕ) (hj : j < n) :
    ∑ l ∈ Finset.range n, W j l = 1 := by
  classical
  obtain ⟨-, h1, h2⟩ := mhWeights_entries hG h
  rw [← Finset.add_sum_erase _ _ (Finset.mem_range.2 hj), h2 j hj, ← Finset.add_sum_erase _ _ (Finset.mem_range.2 hj), if_neg (hG.irrefl _), zero_add,
    Finset.sum_congr rfl fun l hl => h1 j l (Finset.ne_of_mem_erase hl).symm, sub_add_cancel]

/-- **C46**, support: no weight between different nodes that are not neighbours -/
theorem C46_support (n : ℕ) (G : NxGraph) (hG : G.Simple) (W : ℕ → ℕ → K) (h : mhWeights n G = .ok W) (j l : ℕ) (hjl : j ≠ l)
    (he : ¬ G.IsEdge (j + 1) (l + 1)) : W j l = 0 := by
  rw [(mhWeights_entries hG h).2.1 j l hjl, if_neg he]

variable [LinearOrder K] [IsStrictOrderedRing K]

theorem mhValue_pos (G : NxGraph) (u v : ℕ) : (0 : K) < mhValue G u v := by
  unfold mhValue
  positivity

/-- **C46**, edges: the weight of an edge is positive -/
theorem C46_edges (n : ℕ) (G : NxGraph) (hG : G.Simple) (W : ℕ → ℕ → K) (h : mhWeights n G = .ok W) (j l : ℕ)
    (he : G.IsEdge (j + 1) (l + 1)) : 0 < W j l := by
  have hjl : j ≠ l := by
    rintro rfl
    exact hG.irrefl _ he
  rw [(mhWeights_entries hG h).2.1 j l hjl, if_pos he]
  exact mhValue_pos _ _ _

/-- **C46**, diagonal: at least `1 / (degree + 1)` -/
theorem C46_diagonal (n : ℕ) (G : NxGraph) (hG : G.Simple) (W : ℕ → ℕ → K) (h : mhWeights n G = .ok W) (j : ℕ) (hj : j < n) :
    1 / ((G.degree (j + 1) : K) + 1) ≤ W j j ∧ 0 < W j j := by
  classical
  obtain ⟨h0, -, h2⟩ := mhWeights_entries hG h
  have h3 : (0 : K) < 1 / ((G.degree (j + 1) : K) + 1) := by positivity
  suffices h4 : 1 / ((G.degree (j + 1) : K) + 1) ≤ W j j from ⟨h4, h3.trans_le h4⟩
  rw [h2 j hj, ← Finset.sum_filter]
  have h5 : ∑ l ∈ (Finset.range n).filter (fun l => G.IsEdge (j + 1) (l + 1)), (mhValue G (j + 1) (l + 1) : K) ≤
      ∑ l ∈ (Finset.range n).filter (fun l => G.IsEdge (j + 1) (l + 1)), 1 / ((G.degree (j + 1) : K) + 1) := by
    refine Finset.sum_le_sum fun l _ => ?_
    unfold mhValue
    refine one_div_le_one_div_of_le (by positivity) ?_
    have : (G.degree (j + 1) : K) ≤ (max (G.degree (j + 1)) (G.degree (l + 1)) : ℕ) := by exact_mod_cast le_max_left _ _
    linarith
  rw [Finset.sum_const, card_nbrs hG h0, nsmul_eq_mul] at h5
  have h6 : (G.degree (j + 1) : K) * (1 / ((G.degree (j + 1) : K) + 1)) + 1 / ((G.degree (j + 1) : K) + 1) = 1 := by
    field_simp
  linarith

/-- **C46**, signs: all weights are nonnegative -/
theorem C46_nonneg (n : ℕ) (G : NxGraph) (hG : G.Simple) (W : ℕ → ℕ → K) (h : mhWeights n G = .ok W) (j l : ℕ) (hj : j < n) : 0 ≤ W j l := by
  by_cases hjl : j = l
  · subst hjl
    exact (C46_diagonal n G hG W h j hj).2.le
  · by_cases he : G.IsEdge (j + 1) (l + 1)
    · exact (C46_edges n G hG W h j l he).le
    · rw [C46_support n G hG W h j l hjl he]

end

/-- **C46**: what the methods need of the matrix -/
theorem C46_doublyStochastic (n : ℕ) (G : NxGraph) (hG : G.Simple) (W : ℕ → ℕ → ℝ) (h : mhWeights n G = .ok W) : DoublyStochastic n W :=
  ⟨fun j hj l _ => C46_nonneg n G hG W h j l hj, fun j hj => C46_rows n G hG W h j hj, fun l hl => by
    rw [Finset.sum_congr rfl fun j _ => C46_symmetric n G hG W h j l]
    exact C46_rows n G hG W h l hl⟩

theorem C46_connected (n : ℕ) (G : NxGraph) (hG : G.Simple) (hcon : G.Connected n) (W : ℕ → ℕ → ℝ) (h : mhWeights n G = .ok W) :
    WeightConnected n W := by
  intro j hj l hl
  have hlab := (mhWeights_entries hG h).1
  have : ∀ v, Relation.ReflTransGen G.IsEdge (j + 1) v → 1 ≤ v ∧ Relation.ReflTransGen (fun a b => b < n ∧ W a b ≠ 0) j (v - 1) := by
    intro v hv
    induction hv with
    | refl => exact ⟨by omega, .refl⟩
    | @tail u v _ huv ih =>
      obtain ⟨h1, h2, h3, h4⟩ := hlab u v huv
      refine ⟨h3, ih.2.tail ⟨by omega, ?_⟩⟩
      refine (C46_edges n G hG W h (u - 1) (v - 1) ?_).ne'
      rwa [Nat.sub_add_cancel h1, Nat.sub_add_cancel h3]
  exact (this _ (hcon j hj l hl)).2

/-- **C46**, null space: on a connected graph `(I - W) / 2` maps exactly the constant rows to zero, so that keeping all but one singular value
(`Vred`, `Sred`, `decentr_qp.py` 96-98) loses nothing. -/
theorem C46_nullspace {E : Type} [NormedAddCommGroup E] [InnerProductSpace ℝ E] (n : ℕ) (G : NxGraph) (hG : G.Simple) (hcon : G.Connected n)
    (W : ℕ → ℕ → ℝ) (h : mhWeights n G = .ok W) (x : ℕ → E) :
    (∀ j < n, (1 / 2 : ℝ) • (x j - ∑ l ∈ Finset.range n, W j l • x l) = 0) ↔ ∀ j < n, ∀ l < n, x j = x l := by
  have hW := C46_doublyStochastic n G hG W h
  constructor
  · intro h1 j hj l hl
    refine PgExtra.consensus_of_laplace hW (C46_connected n G hG hcon W h) (fun j hj => ?_) hj hl
    have h2 : PgExtra.laplace n W x j = x j - PgExtra.mix n W x j := by rw [PgExtra.mix_eq x hj]; abel
    rw [h2]
    exact (smul_eq_zero.1 (h1 j hj)).resolve_left (by norm_num)
  · intro h1 j hj
    have := PgExtra.mix_const (W := W) hW.rows (fun l hl => h1 l hl j hj) hj
    unfold PgExtra.mix at this
    rw [this, sub_self, smul_zero]

/-- the hypotheses of the C46 theorems can be met: the networks of the experiments -/
example : (∃ W : ℕ → ℕ → ℝ, mhWeights 6 graph6 = .ok W) ∧ graph6.Simple ∧ graph6.Connected 6 ∧
    (∃ W : ℕ → ℕ → ℝ, mhWeights 20 (graph20 20) = .ok W) ∧ (graph20 20).Simple ∧ (graph20 20).Connected 20 := by
  refine ⟨?_, NxGraph.simple_graph6, NxGraph.connected_graph6, ?_, NxGraph.simple_graph20 20, NxGraph.connected_graph20⟩
  · unfold mhWeights
    rw [if_pos (by decide)]
    exact ⟨_, rfl⟩
  · unfold mhWeights
    rw [if_pos (by decide +kernel)]
    exact ⟨_, rfl⟩

/-- an entry of the 6-node matrix -/
example (W : ℕ → ℕ → ℚ) (h : mhWeights 6 graph6 = .ok W) : W 3 1 = 1 / 5 ∧ W 3 3 = 1 / 5 ∧ W 4 4 = 4 / 5 ∧ W 0 4 = 0 := by
  unfold mhWeights at h
  rw [if_pos (by decide)] at h
  cases h
  decide +kernel

/-- with fewer than 20 nodes the 20-node network does not fit the matrix -/
theorem C46_graph20_small (n : ℕ) (hn : n < 20) : (mhWeights n (graph20 n) : Except Err (ℕ → ℕ → ℝ)) = .error .index := by
  unfold mhWeights
  rw [if_neg]
  intro hall
  simp only [List.all_eq_true, decide_eq_true_eq] at hall
  have hG := NxGraph.simple_graph20 n
  have h1 : (graph20 n).IsEdge 19 20 := by
    unfold graph20
    rw [NxGraph.isEdge_addEdges]
    exact Or.inr (Or.inl (by decide))
  rcases (NxGraph.isEdge_iff_edges hG 19 20).1 h1 with h2 | h2
  · have := hall _ h2
    simp only at this
    omega
  · have := hall _ h2
    simp only at this
    omega

end Verif
