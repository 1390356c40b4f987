import Verif.Spec.Discretized
import Verif.Proofs.Graph
import Mathlib.Tactic.Module
import Mathlib.Tactic.Linarith
import Mathlib.Tactic.FieldSimp

/-!
# Lemmas about decentralized ADMM
-/

namespace Verif
open scoped InnerProductSpace

section net
variable {n : ℕ} {deg : ℕ → ℕ} {adj : ℕ → List ℕ}

/-- neighbours as a set -/
def nb (adj : ℕ → List ℕ) (j : ℕ) : Finset ℕ := (adj j).toFinset

theorem mem_nb {j l : ℕ} : l ∈ nb adj j ↔ l ∈ adj j := List.mem_toFinset

theorem Net.card (h : Net n deg adj) {j : ℕ} (hj : j < n) : (nb adj j).card = deg j := by
  rw [h.deg j hj, nb, List.toFinset_card_of_nodup (h.nodup j hj)]

theorem Net.sum_rows {V : Type} [AddCommMonoid V] (h : Net n deg adj) {j : ℕ} (hj : j < n) (F : ℕ → V) :
    ∑ r ∈ Finset.range (deg j), F r = ∑ l ∈ nb adj j, F ((adj j).idxOf l) := by
  rw [h.deg j hj]
  symm
  apply Finset.sum_bij (fun l _ => (adj j).idxOf l)
  · intro l hl
    rw [Finset.mem_range]
    exact List.idxOf_lt_length_of_mem (mem_nb.1 hl)
  · intro a ha b hb hab
    exact (List.idxOf_inj (mem_nb.1 ha)).1 hab
  · intro r hr
    rw [Finset.mem_range] at hr
    exact ⟨(adj j)[r], mem_nb.2 (List.getElem_mem hr), List.Nodup.idxOf_getElem (h.nodup j hj) r hr⟩
  · intros; rfl

theorem Net.swap {V : Type} [AddCommMonoid V] (h : Net n deg adj) (F : ℕ → ℕ → V) :
    ∑ j ∈ Finset.range n, ∑ l ∈ nb adj j, F j l = ∑ j ∈ Finset.range n, ∑ l ∈ nb adj j, F l j := by
  have key : ∀ F : ℕ → ℕ → V, ∑ j ∈ Finset.range n, ∑ l ∈ nb adj j, F j l =
      ∑ j ∈ Finset.range n, ∑ l ∈ Finset.range n, if l ∈ adj j then F j l else 0 := by
    intro F
    refine Finset.sum_congr rfl fun j hj => ?_
    rw [Finset.mem_range] at hj
    rw [← Finset.sum_filter]
    refine Finset.sum_congr ?_ fun _ _ => rfl
    ext l
    simp only [Finset.mem_filter, Finset.mem_range, mem_nb]
    exact ⟨fun hl => ⟨h.lt j hj l hl, hl⟩, fun hl => hl.2⟩
  rw [key, key, Finset.sum_comm]
  refine Finset.sum_congr rfl fun j hj => Finset.sum_congr rfl fun l hl => ?_
  rw [Finset.mem_range] at hj hl
  have : j ∈ adj l ↔ l ∈ adj j := ⟨fun hm => h.symm l hl j hm, fun hm => h.symm j hj l hm⟩
  simp only [this]

theorem Net.sum_anti {V : Type} [AddCommGroup V] [Module ℝ V] (h : Net n deg adj) {F : ℕ → ℕ → V}
    (hF : ∀ j < n, ∀ l ∈ adj j, F j l + F l j = 0) : ∑ j ∈ Finset.range n, ∑ l ∈ nb adj j, F j l = 0 := by
  have h1 : ∑ j ∈ Finset.range n, ∑ l ∈ nb adj j, F j l + ∑ j ∈ Finset.range n, ∑ l ∈ nb adj j, F j l = 0 := by
    nth_rewrite 2 [h.swap]
    rw [← Finset.sum_add_distrib]
    refine Finset.sum_eq_zero fun j hj => ?_
    rw [← Finset.sum_add_distrib]
    exact Finset.sum_eq_zero fun l hl => hF j (Finset.mem_range.1 hj) l (mem_nb.1 hl)
  have h2 : (2 : ℝ) • ∑ j ∈ Finset.range n, ∑ l ∈ nb adj j, F j l = 0 := by rw [two_smul]; exact h1
  exact (smul_eq_zero.1 h2).resolve_left (by norm_num)

end net

/-! ### Iterations -/

namespace Dadmm
variable {K V : Type} [Field K] [AddCommGroup V] [Module K V] {n : ℕ} {deg : ℕ → ℕ} {adj : ℕ → List ℕ}

/-- current from node `j` into the edge to `l` -/
def State.cur (adj : ℕ → List ℕ) (s : State V) (j l : ℕ) : V := s.iL j ((adj j).idxOf l)
/-- potential of the edge between `j` and `l`, stored at `j` -/
def State.pot (adj : ℕ → List ℕ) (s : State V) (j l : ℕ) : V := s.e j ((adj j).idxOf l)

theorem z_eq (a : Dadmm K) (hN : Net n deg adj) (s : State V) {j : ℕ} (hj : j < n) :
    a.z deg s j = (1 / (deg j : K)) • ∑ l ∈ nb adj j, (a.R • s.cur adj j l + s.pot adj j l) := by
  unfold z
  rw [hN.sum_rows hj fun r => a.R • s.iL j r + s.e j r]
  rfl

theorem get_idx {l : ℕ} {L : List ℕ} (h : l ∈ L) : L[L.idxOf l]? = some l := by
  rw [List.getElem?_eq_getElem (List.idxOf_lt_length_of_mem h), List.getElem_idxOf]

theorem step_pot (a : Dadmm K) (prox : ℕ → V → K → V) (s : State V) {j l : ℕ} (hl : l ∈ adj j) :
    (a.step deg adj prox s).pot adj j l = a.newEAt adj s (a.step deg adj prox s).x j ((adj j).idxOf l) l := by
  simp [step, State.pot, newE, get_idx hl]

theorem step_pot_plain (a : Dadmm K) (prox : ℕ → V → K → V) (s : State V) {j l : ℕ} (hl : l ∈ adj j) (hc : ¬ a.CapEdge j l) :
    (a.step deg adj prox s).pot adj j l = (1 / 2 : K) • ((a.step deg adj prox s).x j + (a.step deg adj prox s).x l) := by
  rw [step_pot a prox s hl]
  unfold newEAt
  split
  · split
    · rename_i R h Ind Cap hjl
      exact absurd ⟨⟨R, h, Ind, Cap, rfl⟩, hjl⟩ hc
    · rfl
  · rfl

theorem step_cur (a : Dadmm K) (prox : ℕ → V → K → V) (s : State V) (j l : ℕ) :
    (a.step deg adj prox s).cur adj j l = s.cur adj j l + a.stepSize • ((a.step deg adj prox s).pot adj j l - (a.step deg adj prox s).x j) := rfl

/-- potentials agree on every edge; currents are opposite on every edge without a capacitor -/
structure Conserved (a : Dadmm K) (n : ℕ) (adj : ℕ → List ℕ) (s : State V) : Prop where
  pot : ∀ j < n, ∀ l ∈ adj j, s.pot adj j l = s.pot adj l j
  cur : ∀ j < n, ∀ l ∈ adj j, ¬ a.CapEdge j l → s.cur adj j l + s.cur adj l j = 0

theorem CapEdge.comm {a : Dadmm K} {j l : ℕ} : a.CapEdge j l ↔ a.CapEdge l j := by
  unfold CapEdge
  constructor <;> rintro ⟨h1, h2⟩ <;> exact ⟨h1, by tauto⟩

theorem conserved_start (a : Dadmm K) : Conserved a n adj (start : State V) :=
  ⟨fun _ _ _ _ => rfl, fun _ _ _ _ _ => by simp [State.cur, start]⟩

theorem conserved_step (a : Dadmm K) (hN : Net n deg adj) (h2 : (2 : K) ≠ 0) (prox : ℕ → V → K → V) {s : State V} (hs : Conserved a n adj s) :
    Conserved a n adj (a.step deg adj prox s) := by
  constructor
  · intro j hj l hl
    have hl' := hN.symm j hj l hl
    by_cases hc : a.CapEdge j l
    · rw [step_pot a prox s hl, step_pot a prox s hl']
      obtain ⟨⟨R, h, Ind, Cap, rfl⟩, hjl⟩ := hc
      have hp := hs.pot j hj l hl
      unfold State.pot at hp
      simp only [newEAt]
      rw [if_pos hjl, if_pos (by tauto), hp]
      congr 2
      rw [add_comm (s.iL j _)]
      congr 2
      abel
    · rw [step_pot_plain a prox s hl hc, step_pot_plain a prox s hl' (fun h => hc (CapEdge.comm.1 h)), add_comm]
  · intro j hj l hl hc
    have hl' := hN.symm j hj l hl
    have hc' : ¬ a.CapEdge l j := fun h => hc (CapEdge.comm.1 h)
    have hi := hs.cur j hj l hl hc
    rw [step_cur, step_cur, step_pot_plain a prox s hl hc, step_pot_plain a prox s hl' hc']
    generalize (a.step deg adj prox s).x j = xj
    generalize (a.step deg adj prox s).x l = xl
    have h3 : (1 / 2 : K) • (xj + xl) - xj + ((1 / 2 : K) • (xl + xj) - xl) = 0 := by
      rw [add_comm xl xj]
      have : (1 / 2 : K) • (xj + xl) + (1 / 2 : K) • (xj + xl) = xj + xl := by
        haveI : NeZero (2 : K) := ⟨h2⟩
        rw [← add_smul, add_halves, one_smul]
      rw [sub_add_sub_comm, this, sub_self]
    rw [add_add_add_comm, hi, ← smul_add, h3, smul_zero, add_zero]

theorem conserved_states (a : Dadmm K) (hN : Net n deg adj) (h2 : (2 : K) ≠ 0) (prox : ℕ → V → K → V) (k : ℕ) :
    Conserved a n adj (a.states deg adj prox k) := by
  induction k with
  | zero => exact conserved_start a
  | succ k ih => exact conserved_step a hN h2 prox ih

/-- what a run without an exception says about the graph -/
theorem run_ok {a : Dadmm K} {itr : ℕ} {G : NxGraph} {prox : ℕ → V → K → V} {st : ℕ → State V} (h : a.run n itr G prox = .ok st) :
    ∃ adj, G.adjacency = .ok adj ∧ st = a.states (G.nodeDegrees.getD · 0) (adj.getD · []) prox ∧
      (itr ≠ 0 → n ≤ G.nodeDegrees.length ∧ (∀ j < n, G.nodeDegrees.getD j 0 ≠ 0) ∧ ∀ j < n, ∀ l ∈ adj.getD j [], l < n) := by
  unfold run at h
  cases hadj : G.adjacency with
  | error e => rw [hadj] at h; simp [bind, Except.bind] at h
  | ok adj =>
    refine ⟨adj, rfl, ?_⟩
    rw [hadj] at h
    simp only [bind, Except.bind] at h
    by_cases hi : itr = 0
    · simp [hi, pure, Except.pure] at h
      exact ⟨h.symm, fun h' => absurd hi h'⟩
    · rw [if_pos hi] at h
      unfold check at h
      split at h
      · simp at h
      · rename_i hc
        split at hc
        · split at hc
          · split at hc
            · rename_i c1 c2 c3
              simp [pure, Except.pure] at h
              refine ⟨h.symm, fun _ => ?_⟩
              simp only [List.all_eq_true, List.mem_range, decide_eq_true_eq] at c1 c2 c3
              refine ⟨?_, c2, c3⟩
              rcases Nat.eq_zero_or_pos n with h0 | h0
              · omega
              · have := c1 (n - 1) (by omega)
                omega
            · simp at hc
          · simp at hc
        · simp at hc

theorem run_iff {a : Dadmm K} {itr : ℕ} {G : NxGraph} {prox : ℕ → V → K → V} {st : ℕ → State V} : a.run n itr G prox = .ok st ↔
    ∃ adj, G.adjacency = .ok adj ∧ (itr ≠ 0 → check n G.nodeDegrees adj = .ok ()) ∧
      st = a.states (G.nodeDegrees.getD · 0) (adj.getD · []) prox := by
  unfold run
  cases hadj : G.adjacency with
  | error e => simp [bind, Except.bind]
  | ok adj =>
    by_cases hi : itr = 0
    · simp [hi, bind, Except.bind, pure, Except.pure, eq_comm]
    · cases hc : check n G.nodeDegrees adj with
      | error e => simp [hi, bind, Except.bind, hc]
      | ok u => simp [hi, bind, Except.bind, pure, Except.pure, eq_comm, hc]

theorem nodeDegrees_length (G : NxGraph) : G.nodeDegrees.length = G.adj.length := by
  simp [NxGraph.nodeDegrees, Dict.keys]

/-- a run without an exception on a simple graph: the network by positions -/
theorem run_net {a : Dadmm K} {itr : ℕ} {G : NxGraph} {prox : ℕ → V → K → V} {st : ℕ → State V} (hG : G.Simple)
    (h : a.run n itr G prox = .ok st) (hi : itr ≠ 0) :
    ∃ deg adj, Net n deg adj ∧ st = a.states deg adj prox ∧ (∀ j < n, deg j ≠ 0) ∧ (∀ j < n, ∀ l, l ∈ adj j ↔ G.IsEdge (j + 1) (l + 1)) ∧
      (∀ j < n, ∀ l ∈ adj j, (adj j).idxOf l = G.pos j l) ∧ ∀ u v, G.IsEdge u v → 1 ≤ u ∧ 1 ≤ v := by
  obtain ⟨adj, h1, h2, h3⟩ := run_ok h
  obtain ⟨h4, h5, h6⟩ := h3 hi
  rw [nodeDegrees_length] at h4
  obtain ⟨h7, h8, h9, h10⟩ := net_of_graph hG h1 h4 h6
  exact ⟨_, _, h7, h2, h5, h8, h9, h10⟩

end Dadmm

/-! ### Proximal operators give subgradients -/

section prox
variable {E : Type} [NormedAddCommGroup E] [InnerProductSpace ℝ E]

theorem CFun.IsProx.sample {F : CFun E} (hF : ConvexOn ℝ F.dom F.f) {rho : ℝ} (hr : 0 < rho) {z p : E} (h : F.IsProx rho z p) :
    F.Sample p (rho⁻¹ • (z - p)) (F.f p) := by
  refine ⟨h.1, rfl, fun y hy => ?_⟩
  -- move from `p` towards `y` by `t`
  have key : ∀ t : ℝ, 0 < t → t ≤ 1 → ⟪rho⁻¹ • (z - p), y - p⟫_ℝ ≤ F.f y - F.f p + t * (‖y - p‖ ^ 2 / (2 * rho)) := by
    intro t ht ht1
    have hq : (1 - t) • p + t • y ∈ F.dom := hF.1 h.1 hy (by linarith) ht.le (by ring)
    have h1 := h.2 _ hq
    have h2 := hF.2 h.1 hy (show 0 ≤ 1 - t by linarith) ht.le (by ring)
    have h3 : (1 - t) • p + t • y - z = (p - z) + t • (y - p) := by module
    rw [h3, norm_add_sq_real, inner_smul_right, norm_smul, mul_pow, Real.norm_eq_abs, sq_abs] at h1
    simp only [smul_eq_mul] at h2
    have h4 : ⟪rho⁻¹ • (z - p), y - p⟫_ℝ = - (rho⁻¹ * ⟪p - z, y - p⟫_ℝ) := by
      rw [inner_smul_left, ← neg_sub p z, inner_neg_left]
      simp
    rw [h4]
    have h5 : t * (- (rho⁻¹ * ⟪p - z, y - p⟫_ℝ)) ≤ t * (F.f y - F.f p + t * (‖y - p‖ ^ 2 / (2 * rho))) := by
      have e1 : (‖p - z‖ ^ 2 + 2 * (t * ⟪p - z, y - p⟫_ℝ) + t ^ 2 * ‖y - p‖ ^ 2) / (2 * rho) =
          ‖p - z‖ ^ 2 / (2 * rho) + t * (rho⁻¹ * ⟪p - z, y - p⟫_ℝ) + t * (t * (‖y - p‖ ^ 2 / (2 * rho))) := by
        field_simp
      rw [e1] at h1
      nlinarith [h1, h2]
    exact le_of_mul_le_mul_left h5 ht
  by_contra hlt
  push Not at hlt
  have hc : 0 ≤ ‖y - p‖ ^ 2 / (2 * rho) := by positivity
  set c := ‖y - p‖ ^ 2 / (2 * rho)
  set d := F.f p + ⟪rho⁻¹ • (z - p), y - p⟫_ℝ - F.f y with hd
  have hdpos : 0 < d := by rw [hd]; linarith
  have h6 := key (min 1 (d / (2 * (c + 1)))) (lt_min one_pos (by positivity)) (min_le_left _ _)
  have h7 : min 1 (d / (2 * (c + 1))) * c ≤ d / 2 := by
    calc min 1 (d / (2 * (c + 1))) * c ≤ d / (2 * (c + 1)) * c := mul_le_mul_of_nonneg_right (min_le_right _ _) hc
      _ ≤ d / (2 * (c + 1)) * (c + 1) := by
        apply mul_le_mul_of_nonneg_left (by linarith) (by positivity)
      _ = d / 2 := by field_simp
  linarith

theorem SumOpt.min {n : ℕ} {F : ℕ → CFun E} {x : E} (h : SumOpt n F x) : SumMin n F x := by
  obtain ⟨g, h1, h2⟩ := h
  refine ⟨fun j hj => (h1 j hj).1, fun y hy => ?_⟩
  have h3 : ∑ j ∈ Finset.range n, ((F j).f x + ⟪g j, y - x⟫_ℝ) ≤ ∑ j ∈ Finset.range n, (F j).f y :=
    Finset.sum_le_sum fun j hj => (h1 j (Finset.mem_range.1 hj)).2.2 y (hy j (Finset.mem_range.1 hj))
  rw [Finset.sum_add_distrib, ← sum_inner, h2, inner_zero_left, add_zero] at h3
  exact h3

end prox

end Verif
