import Verif.Proofs.DadmmFixed
import Verif.Proofs.Convex
import Verif.Spec.Stable
import Mathlib.Topology.Algebra.InfiniteSum.Real
import Mathlib.Analysis.SpecificLimits.Basic

/-!
# An energy of decentralized ADMM
-/

namespace Verif
open scoped InnerProductSpace

variable {E : Type} [NormedAddCommGroup E] [InnerProductSpace ℝ E] {n : ℕ} {deg : ℕ → ℕ} {adj : ℕ → List ℕ}

/-- sum over all ends of edges -/
def ends (n : ℕ) (adj : ℕ → List ℕ) (F : ℕ → ℕ → ℝ) : ℝ := ∑ j ∈ Finset.range n, ∑ l ∈ nb adj j, F j l

theorem ends_congr {F G : ℕ → ℕ → ℝ} (h : ∀ j < n, ∀ l ∈ adj j, F j l = G j l) : ends n adj F = ends n adj G :=
  Finset.sum_congr rfl fun j hj => Finset.sum_congr rfl fun l hl => h j (Finset.mem_range.1 hj) l (mem_nb.1 hl)

theorem ends_le {F G : ℕ → ℕ → ℝ} (h : ∀ j < n, ∀ l ∈ adj j, F j l ≤ G j l) : ends n adj F ≤ ends n adj G :=
  Finset.sum_le_sum fun j hj => Finset.sum_le_sum fun l hl => h j (Finset.mem_range.1 hj) l (mem_nb.1 hl)

theorem ends_add (F G : ℕ → ℕ → ℝ) : ends n adj (fun j l => F j l + G j l) = ends n adj F + ends n adj G := by
  simp [ends, Finset.sum_add_distrib]

theorem ends_sub (F G : ℕ → ℕ → ℝ) : ends n adj (fun j l => F j l - G j l) = ends n adj F - ends n adj G := by
  simp [ends, Finset.sum_sub_distrib]

theorem ends_mul (c : ℝ) (F : ℕ → ℕ → ℝ) : ends n adj (fun j l => c * F j l) = c * ends n adj F := by
  simp [ends, Finset.mul_sum]

theorem ends_nonneg {F : ℕ → ℕ → ℝ} (h : ∀ j < n, ∀ l ∈ adj j, 0 ≤ F j l) : 0 ≤ ends n adj F :=
  Finset.sum_nonneg fun j hj => Finset.sum_nonneg fun l hl => h j (Finset.mem_range.1 hj) l (mem_nb.1 hl)

theorem Net.ends_zero (hN : Net n deg adj) {F : ℕ → ℕ → ℝ} (h : ∀ j < n, ∀ l ∈ adj j, F j l + F l j = 0) : ends n adj F = 0 := hN.sum_anti h

/-- Cauchy-Schwarz over the ends of edges -/
theorem ends_inner_sq (p q : ℕ → ℕ → E) : ends n adj (fun j l => ⟪p j l, q j l⟫_ℝ) ^ 2 ≤
    ends n adj (fun j l => ‖p j l‖ ^ 2) * ends n adj (fun j l => ‖q j l‖ ^ 2) := by
  unfold ends
  rw [Finset.sum_sigma', Finset.sum_sigma', Finset.sum_sigma']
  set S := (Finset.range n).sigma fun j => nb adj j
  have h1 : |∑ x ∈ S, ⟪p x.1 x.2, q x.1 x.2⟫_ℝ| ≤ ∑ x ∈ S, ‖p x.1 x.2‖ * ‖q x.1 x.2‖ :=
    (Finset.abs_sum_le_sum_abs _ _).trans (Finset.sum_le_sum fun x _ => abs_real_inner_le_norm _ _)
  have h2 := Finset.sum_mul_sq_le_sq_mul_sq S (fun x => ‖p x.1 x.2‖) (fun x => ‖q x.1 x.2‖)
  calc (∑ x ∈ S, ⟪p x.1 x.2, q x.1 x.2⟫_ℝ) ^ 2 = |∑ x ∈ S, ⟪p x.1 x.2, q x.1 x.2⟫_ℝ| ^ 2 := (sq_abs _).symm
    _ ≤ (∑ x ∈ S, ‖p x.1 x.2‖ * ‖q x.1 x.2‖) ^ 2 := pow_le_pow_left₀ (abs_nonneg _) h1 2
    _ ≤ _ := h2

/-- the energy identity of one iteration, without functions: `i`, `i'` currents, `e`, `e'` potentials before and after, `ih`, `xh` an optimal
pair, `w` the weight of a potential and `q` a coupling of its movement to the ends -/
theorem energy_identity (hN : Net n deg adj) {s R : ℝ} (hs : s ≠ 0) (x : ℕ → E) (xh : E) (i i' ih e e' : ℕ → ℕ → E) (w q : ℕ → ℕ → ℝ)
    (he : ∀ j < n, ∀ l ∈ adj j, e j l = e l j) (he' : ∀ j < n, ∀ l ∈ adj j, e' j l = e' l j)
    (hw : ∀ j l, w j l = w l j) (hq : ∀ j l, q j l = q l j)
    (hi : ∀ j < n, ∀ l ∈ adj j, i j l + i l j = (2 * (w j l - R⁻¹)) • (e j l - e' j l) + R⁻¹ • ((x j - e' j l) + (x l - e' j l)))
    (hr : ∀ j < n, ∀ l ∈ adj j, (R⁻¹ - w j l * q j l) • ((x j - e' j l) + (x l - e' j l)) = 0)
    (hih : ∀ j < n, ∀ l ∈ adj j, ih j l + ih l j = 0)
    (hi' : ∀ j < n, ∀ l ∈ adj j, i' j l = i j l + s • (e' j l - x j)) :
    2 * ends n adj (fun j l => ⟪i j l + R⁻¹ • (e j l - x j) - ih j l, x j - xh⟫_ℝ) =
      s⁻¹ * (ends n adj (fun j l => ‖i j l - ih j l‖ ^ 2) - ends n adj (fun j l => ‖i' j l - ih j l‖ ^ 2)) +
      (ends n adj (fun j l => w j l * ‖e j l - xh‖ ^ 2) - ends n adj (fun j l => w j l * ‖e' j l - xh‖ ^ 2)) -
      ends n adj (fun j l => w j l * ‖(e j l - e' j l) - q j l • (x j - e' j l)‖ ^ 2) -
      ends n adj (fun j l => (2 * R⁻¹ - s - w j l * q j l ^ 2) * ‖x j - e' j l‖ ^ 2) := by
  have z1 : ends n adj (fun j l => ⟪i j l - ih j l, e' j l - xh⟫_ℝ + (R⁻¹ - w j l) * ⟪e j l - e' j l, e' j l - xh⟫_ℝ +
      ⟪e j l - e' j l, (R⁻¹ - w j l * q j l) • (x j - e' j l)⟫_ℝ - R⁻¹ * ⟪x j - e' j l, e' j l - xh⟫_ℝ) = 0 := by
    refine hN.ends_zero fun j hj l hl => ?_
    rw [← he j hj l hl, ← he' j hj l hl, ← hw j l, ← hq j l]
    have h1 := hi j hj l hl
    have h2 := hr j hj l hl
    have h3 := hih j hj l hl
    generalize e' j l - xh = b at *
    have h4 : ⟪i j l - ih j l, b⟫_ℝ + ⟪i l j - ih l j, b⟫_ℝ =
        2 * (w j l - R⁻¹) * ⟪e j l - e' j l, b⟫_ℝ + R⁻¹ * (⟪x j - e' j l, b⟫_ℝ + ⟪x l - e' j l, b⟫_ℝ) := by
      rw [← inner_add_left, sub_add_sub_comm, h1, h3, sub_zero, inner_add_left, real_inner_smul_left, real_inner_smul_left, inner_add_left]
    have h5 : ⟪e j l - e' j l, (R⁻¹ - w j l * q j l) • (x j - e' j l)⟫_ℝ + ⟪e j l - e' j l, (R⁻¹ - w j l * q j l) • (x l - e' j l)⟫_ℝ = 0 := by
      rw [← inner_add_right, ← smul_add, h2, inner_zero_right]
    linarith
  have key : ∀ j < n, ∀ l ∈ adj j, 2 * ⟪i j l + R⁻¹ • (e j l - x j) - ih j l, x j - xh⟫_ℝ =
      s⁻¹ * (‖i j l - ih j l‖ ^ 2 - ‖i' j l - ih j l‖ ^ 2) + (w j l * ‖e j l - xh‖ ^ 2 - w j l * ‖e' j l - xh‖ ^ 2) -
      w j l * ‖(e j l - e' j l) - q j l • (x j - e' j l)‖ ^ 2 - (2 * R⁻¹ - s - w j l * q j l ^ 2) * ‖x j - e' j l‖ ^ 2 +
      2 * (⟪i j l - ih j l, e' j l - xh⟫_ℝ + (R⁻¹ - w j l) * ⟪e j l - e' j l, e' j l - xh⟫_ℝ +
        ⟪e j l - e' j l, (R⁻¹ - w j l * q j l) • (x j - e' j l)⟫_ℝ - R⁻¹ * ⟪x j - e' j l, e' j l - xh⟫_ℝ) := by
    intro j hj l hl
    rw [hi' j hj l hl]
    generalize i j l = i0
    generalize ih j l = h0
    generalize e j l = e0
    generalize e' j l = e1
    generalize x j = x0
    generalize w j l = w0
    generalize q j l = q0
    have e_1 : i0 + s • (e1 - x0) - h0 = (i0 - h0) - s • (x0 - e1) := by module
    have e_2 : e0 - xh = (e0 - e1) + (e1 - xh) := by abel
    have e_3 : i0 + R⁻¹ • (e0 - x0) - h0 = (i0 - h0) + R⁻¹ • ((e0 - e1) - (x0 - e1)) := by module
    have e_4 : x0 - xh = (x0 - e1) + (e1 - xh) := by abel
    rw [e_1, e_2, e_3, e_4]
    generalize i0 - h0 = a
    generalize x0 - e1 = r
    generalize e0 - e1 = d
    generalize e1 - xh = b
    rw [norm_sub_sq_real, norm_add_sq_real d b, norm_sub_sq_real, norm_smul, norm_smul, mul_pow, mul_pow, Real.norm_eq_abs, Real.norm_eq_abs, sq_abs, sq_abs,
      inner_add_left, inner_add_right, inner_add_right, inner_smul_left, inner_smul_left, inner_smul_right, inner_smul_right, inner_smul_right,
      inner_sub_left, inner_sub_left, real_inner_self_eq_norm_sq]
    simp only [RCLike.conj_to_real]
    have hs' : s⁻¹ * s = 1 := inv_mul_cancel₀ hs
    linear_combination (s * ‖r‖ ^ 2 - 2 * ⟪a, r⟫_ℝ) * hs'
  rw [← ends_mul, ends_congr key, ends_add, ends_sub, ends_sub, ends_add, ends_mul, ends_mul, z1, ends_sub, ends_sub]
  ring

/-! ### Flows -/

/-- a flow along a path: it leaves `a` and arrives at `b` -/
theorem flow_path {adj : ℕ → List ℕ} {n : ℕ} (hN : Net n deg adj) {a b : ℕ} (ha : a < n)
    (h : Relation.ReflTransGen (fun j l => l ∈ adj j) a b) (v : E) :
    b < n ∧ ∃ i : ℕ → ℕ → E, (∀ j l, i j l + i l j = 0) ∧ ∀ j, ∑ l ∈ nb adj j, i j l = (if j = a then v else 0) - (if j = b then v else 0) := by
  induction h with
  | refl => exact ⟨ha, fun _ _ => 0, by simp, by simp⟩
  | @tail b c _ hbc ih =>
    obtain ⟨hb, i, h1, h2⟩ := ih
    have hc := hN.lt b hb c hbc
    have hcb := hN.symm b hb c hbc
    have hne : b ≠ c := fun h => hN.irrefl b hb (by rw [h] at hbc ⊢; exact hbc)
    refine ⟨hc, fun j l => i j l + ((if j = b ∧ l = c then v else 0) - (if j = c ∧ l = b then v else 0)), ?_, ?_⟩
    · intro j l
      have h3 := h1 j l
      have e1 : (if l = b ∧ j = c then v else 0) = (if j = c ∧ l = b then v else 0) := by simp only [and_comm]
      have e2 : (if l = c ∧ j = b then v else 0) = (if j = b ∧ l = c then v else 0) := by simp only [and_comm]
      dsimp only
      rw [e1, e2, add_add_add_comm, h3]
      abel
    · intro j
      rw [Finset.sum_add_distrib, h2 j, Finset.sum_sub_distrib]
      have e1 : ∑ l ∈ nb adj j, (if j = b ∧ l = c then v else 0) = if j = b then v else 0 := by
        by_cases hj : j = b
        · subst hj
          simp [mem_nb, hbc]
        · simp [hj]
      have e2 : ∑ l ∈ nb adj j, (if j = c ∧ l = b then v else 0) = if j = c then v else 0 := by
        by_cases hj : j = c
        · subst hj
          simp [mem_nb, hcb]
        · simp [hj]
      rw [e1, e2]
      abel

/-- on a connected network every balanced supply is carried by a flow -/
theorem flow_exists {adj : ℕ → List ℕ} {n : ℕ} (hn : 0 < n) (hN : Net n deg adj) (hcon : ∀ j < n, Relation.ReflTransGen (fun j l => l ∈ adj j) j 0)
    (g : ℕ → E) (hg : ∑ j ∈ Finset.range n, g j = 0) :
    ∃ i : ℕ → ℕ → E, (∀ j l, i j l + i l j = 0) ∧ ∀ j < n, ∑ l ∈ nb adj j, i j l = g j := by
  have h1 : ∀ a, ∃ i : ℕ → ℕ → E, (∀ j l, i j l + i l j = 0) ∧
      (a < n → ∀ j, ∑ l ∈ nb adj j, i j l = (if j = a then g a else 0) - (if j = 0 then g a else 0)) := by
    intro a
    by_cases ha : a < n
    · obtain ⟨-, i, h2, h3⟩ := flow_path hN ha (hcon a ha) (g a)
      exact ⟨i, h2, fun _ => h3⟩
    · exact ⟨fun _ _ => 0, by simp, fun h => absurd h ha⟩
  choose i h2 h3 using h1
  refine ⟨fun j l => ∑ a ∈ Finset.range n, i a j l, ?_, ?_⟩
  · intro j l
    rw [← Finset.sum_add_distrib]
    exact Finset.sum_eq_zero fun a _ => h2 a j l
  · intro j hj
    rw [Finset.sum_comm]
    rw [Finset.sum_congr rfl fun a ha => h3 a (Finset.mem_range.1 ha) j, Finset.sum_sub_distrib]
    have e1 : ∑ a ∈ Finset.range n, (if j = a then g a else 0) = g j := by
      rw [Finset.sum_ite_eq]
      simp [hj]
    have e2 : ∑ a ∈ Finset.range n, (if j = 0 then g a else 0) = 0 := by
      split
      · exact hg
      · simp
    rw [e1, e2, sub_zero]

/-! ### Iterations -/

namespace Dadmm

/-- the weight of the potential of an edge in the energy: half the capacitance over the step, or the conductance -/
noncomputable def wt (a : Dadmm ℝ) (j l : ℕ) : ℝ :=
  match a with
  | capacitor R h _ Cap => if (j = 3 ∧ l = 4) ∨ (j = 4 ∧ l = 3) then Cap / (2 * h) else R⁻¹
  | plain R => R⁻¹
  | circuit R _ _ => R⁻¹

/-- how the movement of a capacitor's potential depends on the ends of its edge -/
noncomputable def slip (a : Dadmm ℝ) (j l : ℕ) : ℝ :=
  match a with
  | capacitor R h _ Cap => if (j = 3 ∧ l = 4) ∨ (j = 4 ∧ l = 3) then 2 * h / (Cap * R) else 0
  | plain _ => 0
  | circuit _ _ _ => 0

/-- what the capacitor takes away from the margin of the step size -/
noncomputable def loss (a : Dadmm ℝ) : ℝ :=
  match a with
  | capacitor R h _ Cap => 2 * h / (Cap * R ^ 2)
  | plain _ => 0
  | circuit _ _ _ => 0

theorem wt_comm (a : Dadmm ℝ) (j l : ℕ) : a.wt j l = a.wt l j := by
  unfold wt
  cases a with
  | capacitor R h Ind Cap =>
    have : ((j = 3 ∧ l = 4) ∨ (j = 4 ∧ l = 3)) ↔ ((l = 3 ∧ j = 4) ∨ (l = 4 ∧ j = 3)) := by tauto
    simp only [this]
  | _ => rfl

theorem slip_comm (a : Dadmm ℝ) (j l : ℕ) : a.slip j l = a.slip l j := by
  unfold slip
  cases a with
  | capacitor R h Ind Cap =>
    have : ((j = 3 ∧ l = 4) ∨ (j = 4 ∧ l = 3)) ↔ ((l = 3 ∧ j = 4) ∨ (l = 4 ∧ j = 3)) := by tauto
    simp only [this]
  | _ => rfl

theorem wt_pos {a : Dadmm ℝ} (hR : 0 < a.R) (hcap : a.CapPos) (j l : ℕ) : 0 < a.wt j l := by
  unfold wt
  cases a with
  | capacitor R h Ind Cap =>
    obtain ⟨h1, h2⟩ := hcap R h Ind Cap rfl
    dsimp only
    split
    · positivity
    · exact inv_pos.2 hR
  | plain R => exact inv_pos.2 hR
  | circuit R h Ind => exact inv_pos.2 hR

theorem loss_nonneg {a : Dadmm ℝ} (hR : 0 < a.R) (hcap : a.CapPos) : 0 ≤ a.loss := by
  unfold loss
  cases a with
  | capacitor R h Ind Cap =>
    obtain ⟨h1, h2⟩ := hcap R h Ind Cap rfl
    dsimp only
    positivity
  | _ => exact le_rfl

theorem wt_slip {a : Dadmm ℝ} (hR : 0 < a.R) (hcap : a.CapPos) (j l : ℕ) : a.wt j l * a.slip j l ^ 2 ≤ a.loss := by
  cases a with
  | capacitor R h Ind Cap =>
    obtain ⟨h1, h2⟩ := hcap R h Ind Cap rfl
    have hR' : 0 < R := hR
    have h0 := loss_nonneg hR hcap
    simp only [wt, slip, loss] at h0 ⊢
    split
    · refine le_of_eq ?_
      field_simp
    · simpa using h0
  | _ => simp [slip, loss]

theorem usage_eq {a : Dadmm ℝ} (hR : 0 < a.R) : a.usage = (a.stepSize + a.loss) * a.R / 2 := by
  cases a with
  | plain R =>
    have : R ≠ 0 := hR.ne'
    simp only [usage, stepSize, loss, Dadmm.R]
    field_simp
    ring
  | circuit R h Ind =>
    simp only [usage, stepSize, loss, Dadmm.R]
    rw [add_zero, div_mul_eq_mul_div, div_div, mul_comm Ind 2]
  | capacitor R h Ind Cap =>
    have : R ≠ 0 := hR.ne'
    simp only [usage, stepSize, loss, Dadmm.R]
    rw [add_mul, add_div, div_mul_eq_mul_div, div_div, mul_comm Ind 2]
    congr 1
    field_simp

theorem usage_lt {a : Dadmm ℝ} (hR : 0 < a.R) (h : a.usage < 1) : a.stepSize + a.loss < 2 * a.R⁻¹ := by
  rw [usage_eq hR] at h
  rw [← div_eq_mul_inv, lt_div_iff₀ hR]
  linarith

theorem usage_le {a : Dadmm ℝ} (hR : 0 < a.R) (h : a.usage ≤ 1) : a.stepSize + a.loss ≤ 2 * a.R⁻¹ := by
  rw [usage_eq hR] at h
  rw [← div_eq_mul_inv, le_div_iff₀ hR]
  linarith

/-- the currents of an edge after an iteration, from its potentials -/
theorem pair_cur (a : Dadmm ℝ) (hR : 0 < a.R) (hcap : a.CapPos) (prox : ℕ → E → ℝ → E) {s : State E} (hc : Conserved a n adj s)
    {j l : ℕ} (hj : j < n) (hl : l ∈ adj j) :
    s.cur adj j l + s.cur adj l j =
      (2 * (a.wt j l - a.R⁻¹)) • (s.pot adj j l - (a.step deg adj prox s).pot adj j l) +
      a.R⁻¹ • (((a.step deg adj prox s).x j - (a.step deg adj prox s).pot adj j l) + ((a.step deg adj prox s).x l - (a.step deg adj prox s).pot adj j l)) ∧
    (a.R⁻¹ - a.wt j l * a.slip j l) • (((a.step deg adj prox s).x j - (a.step deg adj prox s).pot adj j l) +
      ((a.step deg adj prox s).x l - (a.step deg adj prox s).pot adj j l)) = 0 := by
  by_cases hcap' : a.CapEdge j l
  · have h1 := step_pot a prox s hl (deg := deg)
    revert h1
    generalize (a.step deg adj prox s).x = x
    generalize (a.step deg adj prox s).pot adj j l = e'
    intro h1
    obtain ⟨⟨R, h, Ind, Cap, rfl⟩, hjl⟩ := hcap'
    obtain ⟨hh, hC⟩ := hcap R h Ind Cap rfl
    have hR' : 0 < R := hR
    simp only [newEAt, wt, slip, if_pos hjl] at h1 ⊢
    change e' = s.pot adj j l - (h / Cap) • (s.cur adj j l + s.cur adj l j + (1 / R) • ((2 : ℝ) • s.pot adj j l - x j - x l)) at h1
    change _ = (2 * (Cap / (2 * h) - R⁻¹)) • _ + R⁻¹ • _ ∧ (R⁻¹ - _) • _ = 0
    constructor
    · rw [h1]
      generalize s.cur adj j l + s.cur adj l j = I
      match_scalars <;> field_simp <;> ring
    · have : R⁻¹ - Cap / (2 * h) * (2 * h / (Cap * R)) = 0 := by field_simp; ring
      rw [this, zero_smul]
  · have h1 := step_pot_plain a prox s hl hcap' (deg := deg)
    have h2 := hc.cur j hj l hl hcap'
    have hw : a.wt j l = a.R⁻¹ := by
      unfold wt
      cases a with
      | capacitor R h Ind Cap =>
        dsimp only
        rw [if_neg fun hjl => hcap' ⟨⟨R, h, Ind, Cap, rfl⟩, hjl⟩]
        rfl
      | _ => rfl
    have hr : ((a.step deg adj prox s).x j - (a.step deg adj prox s).pot adj j l) + ((a.step deg adj prox s).x l - (a.step deg adj prox s).pot adj j l) = 0 := by
      rw [h1]
      module
    rw [h2, hw, hr]
    simp

/-- the energy of a state, measured from an optimal point and flow -/
noncomputable def energy (a : Dadmm ℝ) (n : ℕ) (adj : ℕ → List ℕ) (xh : E) (ih : ℕ → ℕ → E) (s : State E) : ℝ :=
  a.stepSize⁻¹ * ends n adj (fun j l => ‖s.cur adj j l - ih j l‖ ^ 2) + ends n adj (fun j l => a.wt j l * ‖s.pot adj j l - xh‖ ^ 2)

theorem energy_nonneg {a : Dadmm ℝ} (hcap : a.CapPos) (hs : 0 < a.stepSize) (hR : 0 < a.R) {xh : E} {ih : ℕ → ℕ → E} (s : State E) :
    0 ≤ energy a n adj xh ih s := by
  unfold energy
  have h3 : 0 ≤ ends n adj (fun j l => ‖s.cur adj j l - ih j l‖ ^ 2) := ends_nonneg fun _ _ _ _ => by positivity
  have h4 : 0 ≤ ends n adj (fun j l => a.wt j l * ‖s.pot adj j l - xh‖ ^ 2) :=
    ends_nonneg fun j _ l _ => mul_nonneg (wt_pos hR hcap j l).le (by positivity)
  positivity

/-- the movement of the potentials in an iteration, as far as it is not due to the ends -/
noncomputable def moved (a : Dadmm ℝ) (n : ℕ) (adj : ℕ → List ℕ) (s t : State E) : ℝ :=
  ends n adj (fun j l => a.wt j l * ‖(s.pot adj j l - t.pot adj j l) - a.slip j l • (t.x j - t.pot adj j l)‖ ^ 2)

theorem moved_nonneg {a : Dadmm ℝ} (hR : 0 < a.R) (hcap : a.CapPos) (s t : State E) : 0 ≤ moved a n adj s t :=
  ends_nonneg fun j _ l _ => mul_nonneg (wt_pos hR hcap j l).le (by positivity)

/-- how far the ends of the edges are from the potentials -/
noncomputable def resid (n : ℕ) (adj : ℕ → List ℕ) (s : State E) : ℝ := ends n adj (fun j l => ‖s.x j - s.pot adj j l‖ ^ 2)

/-- the sum of the excesses of the functions over their linear bounds, both ways -/
noncomputable def gap (n : ℕ) (adj : ℕ → List ℕ) (R : ℝ) (xh : E) (ih : ℕ → ℕ → E) (s t : State E) : ℝ :=
  ends n adj (fun j l => ⟪s.cur adj j l + R⁻¹ • (s.pot adj j l - t.x j) - ih j l, t.x j - xh⟫_ℝ)

variable {F : ℕ → CFun E} {prox : ℕ → E → ℝ → E} {xh : E} {ih : ℕ → ℕ → E}

theorem energy_step (a : Dadmm ℝ) (hcap : a.CapPos) (hs : 0 < a.stepSize) (hR : 0 < a.R) (hN : Net n deg adj)
    (hih : ∀ j l, ih j l + ih l j = 0) {s : State E} (hc : Conserved a n adj s) :
    2 * gap n adj a.R xh ih s (a.step deg adj prox s) + (2 * a.R⁻¹ - a.stepSize - a.loss) * resid n adj (a.step deg adj prox s) +
      moved a n adj s (a.step deg adj prox s) ≤ energy a n adj xh ih s - energy a n adj xh ih (a.step deg adj prox s) := by
  have hc' := conserved_step a hN (by norm_num) prox hc (deg := deg)
  have h1 := energy_identity (s := a.stepSize) (R := a.R) hN hs.ne' (a.step deg adj prox s).x xh (s.cur adj)
    ((a.step deg adj prox s).cur adj) ih (s.pot adj) ((a.step deg adj prox s).pot adj) a.wt a.slip hc.pot hc'.pot
    a.wt_comm a.slip_comm (fun j hj l hl => (pair_cur a hR hcap prox hc hj hl).1) (fun j hj l hl => (pair_cur a hR hcap prox hc hj hl).2)
    (fun j _ l _ => hih j l) (fun j _ l _ => step_cur a prox s j l)
  have h2 : (2 * a.R⁻¹ - a.stepSize - a.loss) * ends n adj (fun j l => ‖(a.step deg adj prox s).x j - (a.step deg adj prox s).pot adj j l‖ ^ 2) ≤
      ends n adj (fun j l => (2 * a.R⁻¹ - a.stepSize - a.wt j l * a.slip j l ^ 2) *
        ‖(a.step deg adj prox s).x j - (a.step deg adj prox s).pot adj j l‖ ^ 2) := by
    rw [← ends_mul]
    refine ends_le fun j _ l _ => mul_le_mul_of_nonneg_right ?_ (by positivity)
    linarith [wt_slip hR hcap j l]
  unfold gap energy resid moved
  rw [h1]
  linarith

/-- the functions' gap and the values -/
theorem gap_values (a : Dadmm ℝ) (hR : 0 < a.R) (hN : Net n deg adj) (hd : ∀ j < n, deg j ≠ 0)
    (hF : ∀ j < n, ConvexOn ℝ (F j).dom (F j).f) (hp : ∀ j < n, ∀ z rho, 0 < rho → (F j).IsProx rho z (prox j z rho))
    (hih : ∀ j l, ih j l + ih l j = 0) (hopt : ∀ j < n, (F j).Sample xh (∑ l ∈ nb adj j, ih j l) ((F j).f xh)) {s : State E}
    (hc : Conserved a n adj s) :
    0 ≤ gap n adj a.R xh ih s (a.step deg adj prox s) ∧
    (∀ mu : ℝ, (∀ j < n, StrongConvexOn (F j).dom mu (F j).f) →
      mu * ∑ j ∈ Finset.range n, ‖(a.step deg adj prox s).x j - xh‖ ^ 2 ≤ gap n adj a.R xh ih s (a.step deg adj prox s)) ∧
    ends n adj (fun j l => ⟪ih j l, (a.step deg adj prox s).x j - (a.step deg adj prox s).pot adj j l⟫_ℝ) ≤
      ∑ j ∈ Finset.range n, (F j).f ((a.step deg adj prox s).x j) - ∑ j ∈ Finset.range n, (F j).f xh ∧
    ∑ j ∈ Finset.range n, (F j).f ((a.step deg adj prox s).x j) - ∑ j ∈ Finset.range n, (F j).f xh ≤
      gap n adj a.R xh ih s (a.step deg adj prox s) +
        ends n adj (fun j l => ⟪ih j l, (a.step deg adj prox s).x j - (a.step deg adj prox s).pot adj j l⟫_ℝ) := by
  set t := a.step deg adj prox s with ht
  have hsam := fun j (hj : j < n) => step_sample a hR hN hd hF hp s hj
  rw [← ht] at hsam
  -- the linear bounds in terms of the ends of edges
  have e1 : ∀ i : ℕ → ℕ → E, ∑ j ∈ Finset.range n, ⟪∑ l ∈ nb adj j, i j l, t.x j - xh⟫_ℝ = ends n adj (fun j l => ⟪i j l, t.x j - xh⟫_ℝ) := by
    intro i
    unfold ends
    exact Finset.sum_congr rfl fun j _ => sum_inner _ _ _
  have e2 : ends n adj (fun j l => ⟪ih j l, t.x j - xh⟫_ℝ) = ends n adj (fun j l => ⟪ih j l, t.x j - t.pot adj j l⟫_ℝ) := by
    have hz : ends n adj (fun j l => ⟪ih j l, t.pot adj j l - xh⟫_ℝ) = 0 := by
      refine hN.ends_zero fun j hj l hl => ?_
      have hsym : t.pot adj l j = t.pot adj j l := ((conserved_step a hN (by norm_num) prox hc (deg := deg)).pot j hj l hl).symm
      rw [hsym, ← inner_add_left, hih j l, inner_zero_left]
    have : ends n adj (fun j l => ⟪ih j l, t.x j - xh⟫_ℝ) =
        ends n adj (fun j l => ⟪ih j l, t.x j - t.pot adj j l⟫_ℝ + ⟪ih j l, t.pot adj j l - xh⟫_ℝ) :=
      ends_congr fun j _ l _ => by rw [← inner_add_right]; congr 1; abel
    rw [this, ends_add, hz, add_zero]
  have e3 : gap n adj a.R xh ih s t = ∑ j ∈ Finset.range n, ⟪∑ l ∈ nb adj j, (s.cur adj j l + a.R⁻¹ • (s.pot adj j l - t.x j)), t.x j - xh⟫_ℝ -
      ∑ j ∈ Finset.range n, ⟪∑ l ∈ nb adj j, ih j l, t.x j - xh⟫_ℝ := by
    rw [e1, e1, ← ends_sub]
    exact ends_congr fun j _ l _ => by rw [inner_sub_left]
  have up : ∀ mu : ℝ, (∀ j < n, StrongConvexOn (F j).dom mu (F j).f) →
      ∑ j ∈ Finset.range n, (F j).f (t.x j) - ∑ j ∈ Finset.range n, (F j).f xh + mu / 2 * ∑ j ∈ Finset.range n, ‖t.x j - xh‖ ^ 2 ≤
      ∑ j ∈ Finset.range n, ⟪∑ l ∈ nb adj j, (s.cur adj j l + a.R⁻¹ • (s.pot adj j l - t.x j)), t.x j - xh⟫_ℝ := by
    intro mu hmu
    rw [← Finset.sum_sub_distrib, Finset.mul_sum, ← Finset.sum_add_distrib]
    refine Finset.sum_le_sum fun j hj => ?_
    have hj := Finset.mem_range.1 hj
    have h1 := strong_sample (hmu j hj) (hsam j hj) (hopt j hj).1
    rw [← neg_sub (t.x j) xh, inner_neg_right, norm_neg] at h1
    linarith
  have lo : ∀ mu : ℝ, (∀ j < n, StrongConvexOn (F j).dom mu (F j).f) →
      ∑ j ∈ Finset.range n, ⟪∑ l ∈ nb adj j, ih j l, t.x j - xh⟫_ℝ + mu / 2 * ∑ j ∈ Finset.range n, ‖t.x j - xh‖ ^ 2 ≤
      ∑ j ∈ Finset.range n, (F j).f (t.x j) - ∑ j ∈ Finset.range n, (F j).f xh := by
    intro mu hmu
    rw [← Finset.sum_sub_distrib, Finset.mul_sum, ← Finset.sum_add_distrib]
    refine Finset.sum_le_sum fun j hj => ?_
    have hj := Finset.mem_range.1 hj
    have h1 := strong_sample (hmu j hj) (hopt j hj) (hsam j hj).1
    linarith
  have hz : ∀ j < n, StrongConvexOn (F j).dom (0 : ℝ) (F j).f := fun j hj => strongConvexOn_zero.2 (hF j hj)
  have u0 := up 0 hz
  have l0 := lo 0 hz
  simp only [zero_div, zero_mul, add_zero] at u0 l0
  rw [← e2, ← e1]
  refine ⟨by rw [e3]; linarith, fun mu hmu => ?_, l0, by rw [e3]; linarith⟩
  rw [e3]
  linarith [up mu hmu, lo mu hmu]

/-! ### Limits -/

/-- the sums of gaps, residuals and movements are bounded by the initial energy -/
theorem sum_le (a : Dadmm ℝ) (hcap : a.CapPos) (hs : 0 < a.stepSize) (hR : 0 < a.R) (hN : Net n deg adj)
    (hih : ∀ j l, ih j l + ih l j = 0) (k : ℕ) :
    2 * ∑ t ∈ Finset.range k, gap n adj a.R xh ih (a.states deg adj prox t) (a.states deg adj prox (t + 1)) +
      (2 * a.R⁻¹ - a.stepSize - a.loss) * ∑ t ∈ Finset.range k, resid n adj (a.states deg adj prox (t + 1)) +
      ∑ t ∈ Finset.range k, moved a n adj (a.states deg adj prox t) (a.states deg adj prox (t + 1)) ≤
      energy a n adj xh ih start := by
  have key : 2 * ∑ t ∈ Finset.range k, gap n adj a.R xh ih (a.states deg adj prox t) (a.states deg adj prox (t + 1)) +
      (2 * a.R⁻¹ - a.stepSize - a.loss) * ∑ t ∈ Finset.range k, resid n adj (a.states deg adj prox (t + 1)) +
      ∑ t ∈ Finset.range k, moved a n adj (a.states deg adj prox t) (a.states deg adj prox (t + 1)) ≤
      energy a n adj xh ih start - energy a n adj xh ih (a.states deg adj prox k) := by
    induction k with
    | zero => simp [states]
    | succ k ih' =>
      rw [Finset.sum_range_succ, Finset.sum_range_succ, Finset.sum_range_succ]
      have h1 := energy_step (prox := prox) (xh := xh) a hcap hs hR hN hih (conserved_states a hN (by norm_num) prox k)
      change 2 * gap n adj a.R xh ih (a.states deg adj prox k) (a.states deg adj prox (k + 1)) + _ * resid n adj (a.states deg adj prox (k + 1)) +
        moved a n adj (a.states deg adj prox k) (a.states deg adj prox (k + 1)) ≤ _ - energy a n adj xh ih (a.states deg adj prox (k + 1)) at h1
      linarith
  linarith [energy_nonneg (n := n) (adj := adj) (xh := xh) (ih := ih) hcap hs hR (a.states deg adj prox k)]

theorem tendsto_zero_of_sum_le {u : ℕ → ℝ} (h0 : ∀ k, 0 ≤ u k) {B : ℝ} (h : ∀ k, ∑ t ∈ Finset.range k, u t ≤ B) :
    Filter.Tendsto u Filter.atTop (nhds 0) :=
  (summable_of_sum_range_le h0 h).tendsto_atTop_zero

theorem resid_nonneg (s : State E) : 0 ≤ resid n adj s := ends_nonneg fun _ _ _ _ => by positivity

section limits
variable (a : Dadmm ℝ) (hcap : a.CapPos) (hs : 0 < a.stepSize) (hR : 0 < a.R) (hN : Net n deg adj)
  (hd : ∀ j < n, deg j ≠ 0) (hF : ∀ j < n, ConvexOn ℝ (F j).dom (F j).f) (hp : ∀ j < n, ∀ z rho, 0 < rho → (F j).IsProx rho z (prox j z rho))
  (hih : ∀ j l, ih j l + ih l j = 0) (hopt : ∀ j < n, (F j).Sample xh (∑ l ∈ nb adj j, ih j l) ((F j).f xh))

include hR hN hd hF hp hih hopt

theorem gap_states (t : ℕ) : 0 ≤ gap n adj a.R xh ih (a.states deg adj prox t) (a.states deg adj prox (t + 1)) :=
  (gap_values a hR hN hd hF hp hih hopt (conserved_states a hN (by norm_num) prox t)).1

include hcap hs

theorem sum_gap_le (hs2 : a.stepSize + a.loss ≤ 2 * a.R⁻¹) (k : ℕ) :
    ∑ t ∈ Finset.range k, gap n adj a.R xh ih (a.states deg adj prox t) (a.states deg adj prox (t + 1)) ≤ energy a n adj xh ih start / 2 := by
  have h1 := sum_le (prox := prox) (xh := xh) a hcap hs hR hN hih k
  have h2 : 0 ≤ (2 * a.R⁻¹ - a.stepSize - a.loss) * ∑ t ∈ Finset.range k, resid n adj (a.states deg adj prox (t + 1)) :=
    mul_nonneg (by linarith) (Finset.sum_nonneg fun t _ => resid_nonneg _)
  have h3 : 0 ≤ ∑ t ∈ Finset.range k, moved a n adj (a.states deg adj prox t) (a.states deg adj prox (t + 1)) :=
    Finset.sum_nonneg fun t _ => moved_nonneg hR hcap _ _
  linarith

theorem gap_tendsto (hs2 : a.stepSize + a.loss ≤ 2 * a.R⁻¹) :
    Filter.Tendsto (fun t => gap n adj a.R xh ih (a.states deg adj prox t) (a.states deg adj prox (t + 1))) Filter.atTop (nhds 0) :=
  tendsto_zero_of_sum_le (fun t => gap_states a hR hN hd hF hp hih hopt t) (sum_gap_le a hcap hs hR hN hd hF hp hih hopt hs2)

theorem resid_tendsto (hs2 : a.stepSize + a.loss < 2 * a.R⁻¹) :
    Filter.Tendsto (fun t => resid n adj (a.states deg adj prox (t + 1))) Filter.atTop (nhds 0) := by
  refine tendsto_zero_of_sum_le (fun t => resid_nonneg _) (B := energy a n adj xh ih start / (2 * a.R⁻¹ - a.stepSize - a.loss)) fun k => ?_
  rw [le_div_iff₀ (by linarith)]
  have h1 := sum_le (prox := prox) (xh := xh) a hcap hs hR hN hih k
  have h2 : 0 ≤ ∑ t ∈ Finset.range k, gap n adj a.R xh ih (a.states deg adj prox t) (a.states deg adj prox (t + 1)) :=
    Finset.sum_nonneg fun t _ => gap_states a hR hN hd hF hp hih hopt t
  have h3 : 0 ≤ ∑ t ∈ Finset.range k, moved a n adj (a.states deg adj prox t) (a.states deg adj prox (t + 1)) :=
    Finset.sum_nonneg fun t _ => moved_nonneg hR hcap _ _
  linarith

theorem moved_tendsto (hs2 : a.stepSize + a.loss ≤ 2 * a.R⁻¹) :
    Filter.Tendsto (fun t => moved a n adj (a.states deg adj prox t) (a.states deg adj prox (t + 1))) Filter.atTop (nhds 0) := by
  refine tendsto_zero_of_sum_le (fun t => moved_nonneg hR hcap _ _) (B := energy a n adj xh ih start) fun k => ?_
  have h1 := sum_le (prox := prox) (xh := xh) a hcap hs hR hN hih k
  have h2 : 0 ≤ ∑ t ∈ Finset.range k, gap n adj a.R xh ih (a.states deg adj prox t) (a.states deg adj prox (t + 1)) :=
    Finset.sum_nonneg fun t _ => gap_states a hR hN hd hF hp hih hopt t
  have h3 : 0 ≤ (2 * a.R⁻¹ - a.stepSize - a.loss) * ∑ t ∈ Finset.range k, resid n adj (a.states deg adj prox (t + 1)) :=
    mul_nonneg (by linarith) (Finset.sum_nonneg fun t _ => resid_nonneg _)
  linarith

theorem values_tendsto (hs2 : a.stepSize + a.loss < 2 * a.R⁻¹) :
    Filter.Tendsto (fun t => ∑ j ∈ Finset.range n, (F j).f ((a.states deg adj prox (t + 1)).x j)) Filter.atTop
      (nhds (∑ j ∈ Finset.range n, (F j).f xh)) := by
  have hres := resid_tendsto a hcap hs hR hN hd hF hp hih hopt hs2
  have hgap := gap_tendsto a hcap hs hR hN hd hF hp hih hopt hs2.le
  have hlin : Filter.Tendsto (fun t => ends n adj (fun j l => ⟪ih j l, (a.states deg adj prox (t + 1)).x j -
      (a.states deg adj prox (t + 1)).pot adj j l⟫_ℝ)) Filter.atTop (nhds 0) := by
    have hb : Filter.Tendsto (fun t => Real.sqrt (ends n adj (fun j l => ‖ih j l‖ ^ 2) * resid n adj (a.states deg adj prox (t + 1))))
        Filter.atTop (nhds 0) := by
      have := (hres.const_mul (ends n adj (fun j l => ‖ih j l‖ ^ 2))).sqrt
      simpa using this
    refine squeeze_zero_norm (fun t => ?_) hb
    rw [Real.norm_eq_abs]
    exact Real.abs_le_sqrt (ends_inner_sq _ _)
  have h1 : Filter.Tendsto (fun t => ∑ j ∈ Finset.range n, (F j).f ((a.states deg adj prox (t + 1)).x j) - ∑ j ∈ Finset.range n, (F j).f xh)
      Filter.atTop (nhds 0) := by
    refine tendsto_of_tendsto_of_tendsto_of_le_of_le hlin (by simpa using hgap.add hlin) (fun t => ?_) (fun t => ?_)
    · exact (gap_values a hR hN hd hF hp hih hopt (conserved_states a hN (by norm_num) prox t)).2.2.1
    · exact (gap_values a hR hN hd hF hp hih hopt (conserved_states a hN (by norm_num) prox t)).2.2.2
  simpa using h1.add_const (∑ j ∈ Finset.range n, (F j).f xh)

end limits

end Dadmm

end Verif
