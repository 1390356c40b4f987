import Verif.Spec.Mixing
import Verif.Proofs.Dadmm
import Verif.Proofs.Interp

/-!
# PG-EXTRA: conservation laws and closed forms
-/

namespace Verif
open scoped InnerProductSpace

namespace PgExtra
section algebra
variable {K V : Type} [Field K] [AddCommGroup V] [Module K V]

theorem sum_laplace {n : ℕ} {W : ℕ → ℕ → K} (hc : ∀ l < n, ∑ j ∈ Finset.range n, W j l = 1) (x : ℕ → V) :
    ∑ j ∈ Finset.range n, laplace n W x j = 0 := by
  unfold laplace
  rw [Finset.sum_comm]
  refine Finset.sum_eq_zero fun l hl => ?_
  rw [← Finset.sum_smul, Finset.sum_sub_distrib, hc l (Finset.mem_range.1 hl), Finset.sum_ite_eq', if_pos hl, sub_self, zero_smul]

theorem sum_w {n : ℕ} {W : ℕ → ℕ → K} (hc : ∀ l < n, ∑ j ∈ Finset.range n, W j l = 1) (rho : K) (adj : ℕ → List ℕ) (prox : ℕ → V → K → V)
    (grad : ℕ → V → V) (k : ℕ) : ∑ j ∈ Finset.range n, ((plain rho).states n W adj prox grad k).w j = 0 := by
  induction k with
  | zero => simp [states, start]
  | succ k ih =>
    change ∑ j ∈ Finset.range n, (((plain rho).states n W adj prox grad k).w j +
      (1 / 2 : K) • laplace n W ((plain rho).states n W adj prox grad k).x j) = 0
    rw [Finset.sum_add_distrib, ih, ← Finset.smul_sum, sum_laplace hc, smul_zero, add_zero]

/-- rows that sum to one: `(I - W) x` in terms of differences -/
theorem laplace_eq {n : ℕ} {W : ℕ → ℕ → K} (hr : ∀ j < n, ∑ l ∈ Finset.range n, W j l = 1) (x : ℕ → V) {j : ℕ} (hj : j < n) :
    laplace n W x j = ∑ l ∈ Finset.range n, W j l • (x j - x l) := by
  unfold laplace
  simp only [sub_smul, smul_sub, Finset.sum_sub_distrib]
  rw [← Finset.sum_smul, hr j hj, one_smul]
  congr 1
  simp only [ite_smul, one_smul, zero_smul]
  rw [Finset.sum_ite_eq, if_pos (Finset.mem_range.2 hj)]

theorem mix_eq {n : ℕ} {W : ℕ → ℕ → K} (x : ℕ → V) {j : ℕ} (hj : j < n) : mix n W x j = x j - laplace n W x j := by
  unfold laplace mix
  simp only [sub_smul, Finset.sum_sub_distrib, ite_smul, one_smul, zero_smul]
  rw [Finset.sum_ite_eq, if_pos (Finset.mem_range.2 hj)]
  abel

/-- the sum of the points over the first `k` states -/
def total (st : ℕ → State V) (k j : ℕ) : V := ∑ t ∈ Finset.range k, (st t).x j

theorem laplace_sum (n : ℕ) (W : ℕ → ℕ → K) (x : ℕ → ℕ → V) (k j : ℕ) :
    laplace n W (fun l => ∑ t ∈ Finset.range k, x t l) j = ∑ t ∈ Finset.range k, laplace n W (x t) j := by
  unfold laplace
  rw [Finset.sum_comm]
  exact Finset.sum_congr rfl fun l _ => Finset.smul_sum

/-- the correction of node `j` is half of `(I - W)` applied to the sum of the points so far -/
theorem w_eq (n : ℕ) (W : ℕ → ℕ → K) (rho : K) (adj : ℕ → List ℕ) (prox : ℕ → V → K → V) (grad : ℕ → V → V) (k j : ℕ) :
    ((plain rho).states n W adj prox grad k).w j = (1 / 2 : K) • laplace n W (total ((plain rho).states n W adj prox grad) k) j := by
  unfold total
  rw [laplace_sum]
  induction k with
  | zero => simp [states, start]
  | succ k ih =>
    rw [Finset.sum_range_succ, smul_add, ← ih]
    rfl

section parC
variable (R h C : K) (n : ℕ) (W : ℕ → ℕ → K) (adj : ℕ → List ℕ) (prox : ℕ → V → K → V) (grad : ℕ → V → V)

/-- inductor currents in closed form -/
theorem iL_eq (k : ℕ) {j l : ℕ} (hl : l ∈ adj j) : ((parC R h C).states n W adj prox grad k).iL j l =
    (h * (W j l / R)) • (total ((parC R h C).states n W adj prox grad) k j - total ((parC R h C).states n W adj prox grad) k l) := by
  induction k with
  | zero => simp [states, start, total]
  | succ k ih =>
    change (if l ∈ adj j then ((parC R h C).states n W adj prox grad k).iL j l + (h * rMatrix R W j l) •
      (((parC R h C).states n W adj prox grad k).x j - ((parC R h C).states n W adj prox grad k).x l) else _) = _
    rw [if_pos hl, ih]
    unfold total rMatrix
    rw [Finset.sum_range_succ, Finset.sum_range_succ, one_div_mul_eq_div]
    module

/-- capacitor currents in closed form -/
theorem iC_eq (k : ℕ) {j l : ℕ} (hl : l ∈ adj j) : ((parC R h C).states n W adj prox grad k).iC j l =
    (C / h * (W j l / R)) • (((parC R h C).states n W adj prox grad k).x j - ((parC R h C).states n W adj prox grad k).x l) := by
  induction k with
  | zero => simp [states, start]
  | succ k ih =>
    change (if l ∈ adj j then ((parC R h C).states n W adj prox grad k).iC j l + (C / h * rMatrix R W j l) •
      ((((parC R h C).states n W adj prox grad (k + 1)).x j - ((parC R h C).states n W adj prox grad (k + 1)).x l) -
        (((parC R h C).states n W adj prox grad k).x j - ((parC R h C).states n W adj prox grad k).x l)) else _) = _
    rw [if_pos hl, ih]
    unfold rMatrix
    rw [one_div_mul_eq_div]
    module

/-- entries off the adjacency lists stay zero -/
theorem off_zero (k : ℕ) {j l : ℕ} (hl : l ∉ adj j) : ((parC R h C).states n W adj prox grad k).iL j l = 0 ∧
    ((parC R h C).states n W adj prox grad k).iC j l = 0 := by
  induction k with
  | zero => exact ⟨rfl, rfl⟩
  | succ k ih =>
    refine ⟨?_, ?_⟩
    · change (if l ∈ adj j then _ else ((parC R h C).states n W adj prox grad k).iL j l) = _
      rw [if_neg hl, ih.1]
    · change (if l ∈ adj j then _ else ((parC R h C).states n W adj prox grad k).iC j l) = _
      rw [if_neg hl, ih.2]

end parC

theorem run_plain {n itr : ℕ} {W : ℕ → ℕ → K} {G : NxGraph} {rho : K} {prox : ℕ → V → K → V} {grad : ℕ → V → V} {st : ℕ → State V}
    (h : (plain rho).run n itr W G prox grad = .ok st) : st = (plain rho).states n W (fun _ => []) prox grad := by
  cases h; rfl

theorem run_parC_iff {n itr : ℕ} {W : ℕ → ℕ → K} {G : NxGraph} {R h C : K} {prox : ℕ → V → K → V} {grad : ℕ → V → V} {st : ℕ → State V} :
    (parC R h C).run n itr W G prox grad = .ok st ↔ ∃ adj, G.adjacency = .ok adj ∧ (itr ≠ 0 → check n adj = .ok ()) ∧
      st = (parC R h C).states n W (adj.getD · []) prox grad := by
  unfold run
  cases ha : G.adjacency with
  | error e => simp [bind, Except.bind]
  | ok adj =>
    by_cases hi : itr = 0
    · simp [bind, Except.bind, pure, Except.pure, hi, eq_comm]
    · cases hck : check n adj with
      | error e => simp [bind, Except.bind, hi, hck]
      | ok u => simp [bind, Except.bind, pure, Except.pure, hi, hck, eq_comm]

theorem check_ok {n : ℕ} {adj : List (List ℕ)} (h : check n adj = .ok ()) : n ≤ adj.length ∧ ∀ j < n, ∀ l ∈ adj.getD j [], l < n := by
  unfold check at h
  split at h
  · rename_i h1
    simp only [List.all_eq_true, List.mem_range, Bool.and_eq_true, decide_eq_true_eq] at h1
    refine ⟨?_, fun j hj => (h1 j hj).2⟩
    rcases Nat.eq_zero_or_pos n with rfl | h0
    · omega
    · have := (h1 (n - 1) (by omega)).1
      omega
  · cases h

theorem run_parC_net {n itr : ℕ} {W : ℕ → ℕ → K} {G : NxGraph} {R h C : K} {prox : ℕ → V → K → V} {grad : ℕ → V → V} {st : ℕ → State V}
    (hG : G.Simple) (hrun : (parC R h C).run n itr W G prox grad = .ok st) (hi : itr ≠ 0) :
    ∃ deg adj, Net n deg adj ∧ st = (parC R h C).states n W adj prox grad ∧ (∀ j < n, ∀ l, l ∈ adj j ↔ G.IsEdge (j + 1) (l + 1)) ∧
      ∀ u v, G.IsEdge u v → 1 ≤ u ∧ 1 ≤ v := by
  obtain ⟨adj, h1, h2, h3⟩ := run_parC_iff.1 hrun
  obtain ⟨h4, h5⟩ := check_ok (h2 hi)
  have h6 := (NxGraph.adjacency_ok h1 hG.keys).1
  obtain ⟨h7, h8, -, h9⟩ := net_of_graph hG h1 (by omega) h5
  exact ⟨_, _, h7, h3, h8, h9⟩

/-- a list of neighbours without repetition: the sum over it is a sum over all nodes -/
theorem sum_map_eq {n : ℕ} {l : List ℕ} (hnd : l.Nodup) (hlt : ∀ a ∈ l, a < n) (f : ℕ → V) (h0 : ∀ a < n, a ∉ l → f a = 0) :
    (l.map f).sum = ∑ a ∈ Finset.range n, f a := by
  rw [← List.sum_toFinset f hnd]
  refine Finset.sum_subset (fun a ha => Finset.mem_range.2 (hlt a (List.mem_toFinset.1 ha))) fun a ha hna => h0 a (Finset.mem_range.1 ha) ?_
  simpa using hna

/-! ### Both variants as one recursion -/

theorem laplace_add (n : ℕ) (W : ℕ → ℕ → K) (x y : ℕ → V) (j : ℕ) : laplace n W (fun l => x l + y l) j = laplace n W x j + laplace n W y j := by
  unfold laplace
  rw [← Finset.sum_add_distrib]
  exact Finset.sum_congr rfl fun l _ => smul_add _ _ _

/-- `b` and `c` of the recursion `x' = prox (x - b A x - 2 c A s' - rho grad x)`, `A = (I - W) / 2`, `s'` the sum of the points so far -/
def coefB : PgExtra K → K
  | plain _ => 1
  | parC _ h C => 2 + 2 * C / h - 2 * h

def coefC : PgExtra K → K
  | plain _ => 1 / 2
  | parC _ h _ => h

/-- the argument of the proximal operator -/
def schemeArg (a : PgExtra K) (n : ℕ) (W : ℕ → ℕ → K) (grad : ℕ → V → V) (x s : ℕ → V) (j : ℕ) : V :=
  x j - (a.coefB / 2) • laplace n W x j - a.coefC • laplace n W s j - a.rho • grad j (x j)

theorem plain_step [NeZero (2 : K)] (n : ℕ) (W : ℕ → ℕ → K) (rho : K) (adj : ℕ → List ℕ) (prox : ℕ → V → K → V) (grad : ℕ → V → V) (k : ℕ) {j : ℕ}
    (hj : j < n) : ((plain rho).states n W adj prox grad (k + 1)).x j =
      prox j ((plain rho).schemeArg n W grad ((plain rho).states n W adj prox grad k).x
        (total ((plain rho).states n W adj prox grad) (k + 1)) j) rho := by
  change prox j (mix n W ((plain rho).states n W adj prox grad k).x j - ((plain rho).states n W adj prox grad k).w j -
    rho • grad j (((plain rho).states n W adj prox grad k).x j)) rho = _
  congr 1
  rw [w_eq, mix_eq _ hj]
  unfold schemeArg
  have h1 : total ((plain rho).states n W adj prox grad) (k + 1) = fun l => total ((plain rho).states n W adj prox grad) k l +
      ((plain rho).states n W adj prox grad k).x l := funext fun l => Finset.sum_range_succ _ _
  rw [h1, laplace_add]
  simp only [coefB, coefC, PgExtra.rho]
  generalize laplace n W ((plain rho).states n W adj prox grad k).x j = u
  generalize laplace n W (total ((plain rho).states n W adj prox grad) k) j = v
  have h2 : u = (1 / 2 : K) • u + (1 / 2 : K) • u := by rw [← add_smul, add_halves, one_smul]
  nth_rewrite 1 [h2]
  rw [smul_add]
  abel

theorem parC_step [NeZero (2 : K)] {n : ℕ} {W : ℕ → ℕ → K} {adj : ℕ → List ℕ} {deg : ℕ → ℕ} (hN : Net n deg adj) (hr : ∀ j < n, ∑ l ∈ Finset.range n, W j l = 1)
    (hoff : ∀ j < n, ∀ l < n, j ≠ l → l ∉ adj j → W j l = 0) {R : K} (hR : R ≠ 0) (h C : K) (prox : ℕ → V → K → V) (grad : ℕ → V → V) (k : ℕ) {j : ℕ}
    (hj : j < n) : ((parC R h C).states n W adj prox grad (k + 1)).x j =
      prox j ((parC R h C).schemeArg n W grad ((parC R h C).states n W adj prox grad k).x
        (total ((parC R h C).states n W adj prox grad) (k + 1)) j) R := by
  change prox j (mix n W ((parC R h C).states n W adj prox grad k).x j - R • ((adj j).map fun l =>
    ((parC R h C).states n W adj prox grad k).iL j l + ((parC R h C).states n W adj prox grad k).iC j l).sum -
    R • grad j (((parC R h C).states n W adj prox grad k).x j)) R = _
  congr 1
  set x := ((parC R h C).states n W adj prox grad k).x with hx
  set s := total ((parC R h C).states n W adj prox grad) k with hs
  have h1 : total ((parC R h C).states n W adj prox grad) (k + 1) = fun l => s l + x l := funext fun l => Finset.sum_range_succ _ _
  have h2 : R • ((adj j).map fun l => ((parC R h C).states n W adj prox grad k).iL j l + ((parC R h C).states n W adj prox grad k).iC j l).sum =
      h • laplace n W s j + (C / h) • laplace n W x j := by
    rw [laplace_eq hr s hj, laplace_eq hr x hj, Finset.smul_sum, Finset.smul_sum, ← Finset.sum_add_distrib]
    rw [sum_map_eq (n := n) (hN.nodup j hj) (hN.lt j hj) _ fun l _ hl => by
      rw [(off_zero R h C n W adj prox grad k hl).1, (off_zero R h C n W adj prox grad k hl).2, add_zero], Finset.smul_sum]
    refine Finset.sum_congr rfl fun l hl => ?_
    by_cases hlj : l ∈ adj j
    · rw [iL_eq R h C n W adj prox grad k hlj, iC_eq R h C n W adj prox grad k hlj, smul_add, smul_smul, smul_smul, smul_smul, smul_smul]
      congr 2 <;> field_simp
    · rw [(off_zero R h C n W adj prox grad k hlj).1, (off_zero R h C n W adj prox grad k hlj).2, add_zero, smul_zero]
      by_cases hjl : j = l
      · subst hjl
        simp
      · rw [hoff j hj l (Finset.mem_range.1 hl) hjl hlj]
        simp
  rw [h2, mix_eq _ hj]
  unfold schemeArg
  rw [h1, laplace_add]
  simp only [coefB, coefC, PgExtra.rho]
  generalize laplace n W x j = u
  generalize laplace n W s j = v
  have h3 : (2 + 2 * C / h - 2 * h) / 2 = 1 + C / h - h := by
    have : (2 : K) ≠ 0 := NeZero.ne 2
    field_simp
  rw [h3]
  module

end algebra

section consensus
variable {E : Type} [NormedAddCommGroup E] [InnerProductSpace ℝ E] {n : ℕ} {W : ℕ → ℕ → ℝ}

theorem inner_laplace (hW : DoublyStochastic n W) (x : ℕ → E) :
    2 * ∑ j ∈ Finset.range n, ⟪x j, laplace n W x j⟫_ℝ = ∑ j ∈ Finset.range n, ∑ l ∈ Finset.range n, W j l * ‖x j - x l‖ ^ 2 := by
  have h1 : ∀ j l, W j l * ‖x j - x l‖ ^ 2 = W j l * ‖x j‖ ^ 2 + W j l * ‖x l‖ ^ 2 - 2 * (W j l * ⟪x j, x l⟫_ℝ) := by
    intro j l
    rw [norm_sub_sq_real]
    ring
  simp only [h1, Finset.sum_add_distrib, Finset.sum_sub_distrib]
  have h2 : ∑ j ∈ Finset.range n, ∑ l ∈ Finset.range n, W j l * ‖x j‖ ^ 2 = ∑ j ∈ Finset.range n, ‖x j‖ ^ 2 :=
    Finset.sum_congr rfl fun j hj => by rw [← Finset.sum_mul, hW.rows j (Finset.mem_range.1 hj), one_mul]
  have h3 : ∑ j ∈ Finset.range n, ∑ l ∈ Finset.range n, W j l * ‖x l‖ ^ 2 = ∑ j ∈ Finset.range n, ‖x j‖ ^ 2 := by
    rw [Finset.sum_comm]
    exact Finset.sum_congr rfl fun j hj => by rw [← Finset.sum_mul, hW.cols j (Finset.mem_range.1 hj), one_mul]
  have h4 : ∀ j ∈ Finset.range n, ⟪x j, laplace n W x j⟫_ℝ = ‖x j‖ ^ 2 - ∑ l ∈ Finset.range n, W j l * ⟪x j, x l⟫_ℝ := by
    intro j hj
    have : laplace n W x j = x j - mix n W x j := by rw [mix_eq x (Finset.mem_range.1 hj)]; abel
    rw [this, inner_sub_right, real_inner_self_eq_norm_sq, mix, inner_sum]
    simp only [inner_smul_right]
  rw [Finset.sum_congr rfl h4, Finset.sum_sub_distrib, h2, h3]
  simp only [← Finset.mul_sum]
  ring

/-- points that `I - W` maps to zero are equal -/
theorem consensus_of_laplace (hW : DoublyStochastic n W) (hcon : WeightConnected n W) {x : ℕ → E} (h : ∀ j < n, laplace n W x j = 0)
    {j l : ℕ} (hj : j < n) (hl : l < n) : x j = x l := by
  have h1 := inner_laplace hW x
  rw [Finset.sum_eq_zero (fun j hj => by rw [h j (Finset.mem_range.1 hj), inner_zero_right]), mul_zero, eq_comm,
    Finset.sum_eq_zero_iff_of_nonneg (fun j hj => Finset.sum_nonneg fun l hl =>
      mul_nonneg (hW.nonneg j (Finset.mem_range.1 hj) l (Finset.mem_range.1 hl)) (by positivity))] at h1
  have edge : ∀ a < n, ∀ b < n, W a b ≠ 0 → x a = x b := by
    intro a ha b hb hab
    have h2 := h1 a (Finset.mem_range.2 ha)
    rw [Finset.sum_eq_zero_iff_of_nonneg (fun l hl => mul_nonneg (hW.nonneg a ha l (Finset.mem_range.1 hl)) (by positivity))] at h2
    have h3 := (mul_eq_zero.1 (h2 b (Finset.mem_range.2 hb))).resolve_left hab
    rwa [sq_eq_zero_iff, norm_eq_zero, sub_eq_zero] at h3
  have : ∀ b, Relation.ReflTransGen (fun a b => b < n ∧ W a b ≠ 0) j b → b < n ∧ x j = x b := by
    intro b hb
    induction hb with
    | refl => exact ⟨hj, rfl⟩
    | tail _ hbc ih => exact ⟨hbc.1, ih.2.trans (edge _ ih.1 _ hbc.1 hbc.2)⟩
  exact (this l (hcon j hj l hl)).2

theorem mix_const (hr : ∀ j < n, ∑ l ∈ Finset.range n, W j l = 1) {x : ℕ → E} {v : E} (h : ∀ j < n, x j = v) {j : ℕ} (hj : j < n) :
    mix n W x j = v := by
  unfold mix
  rw [Finset.sum_congr rfl fun l hl => by rw [h l (Finset.mem_range.1 hl)], ← Finset.sum_smul, hr j hj, one_smul]

/-- a convex function lies above its tangents -/
theorem ConvexGradient.le {h : E → ℝ} {g : E → E} (hh : ConvexGradient h g) (x y : E) : h x + ⟪g x, y - x⟫_ℝ ≤ h y := by
  have := lower_of_strong le_rfl (strongConvexOn_zero.2 hh.1) hh.2 x y
  linarith

end consensus
end PgExtra

variable {E : Type} [NormedAddCommGroup E] [InnerProductSpace ℝ E]

/-- subgradients and gradients that cancel give a minimiser of the sum -/
theorem sumMin_of_samples {n : ℕ} {F : ℕ → CFun E} {h : ℕ → E → ℝ} {gr : ℕ → E → E} (hh : ∀ j < n, ConvexGradient (h j) (gr j)) {x : E} {g : ℕ → E}
    (hs : ∀ j < n, (F j).Sample x (g j) ((F j).f x)) (h0 : ∑ j ∈ Finset.range n, (g j + gr j x) = 0) :
    SumOpt n (fun j => (F j).plus (h j)) x := by
  refine ⟨fun j => g j + gr j x, fun j hj => ⟨(hs j hj).1, rfl, fun y hy => ?_⟩, h0⟩
  have h1 := (hs j hj).2.2 y hy
  have h2 := PgExtra.ConvexGradient.le (hh j hj) x y
  rw [inner_add_left]
  change (F j).f x + h j x + _ ≤ (F j).f y + h j y
  linarith

end Verif
