import Verif.Proofs.DadmmConv
import Verif.Props.Dadmm

/-!
# C52: decentralized ADMM converges

All three variants, on every connected graph, for all convex functions and all positive stable parameters: `dadmm` always, `cir_dadmm` whenever
`h R / (2 Inductance) < 1` and `cir_dadmm_c` whenever `h R / (2 Inductance) + h / (R Capacitance) < 1` (`Dadmm.usage`, Spec/Stable).

Axioms of every theorem: propext, Classical.choice, Quot.sound.
-/

namespace Verif
open scoped InnerProductSpace
open Filter (Tendsto atTop)

variable {E : Type} [NormedAddCommGroup E] [InnerProductSpace ℝ E]

/-- what the convergence theorems assume about the problem: a connected simple graph, convex functions with their proximal operators, and a
point `xh` with subgradients that sum to zero -/
structure Dadmm.Setting (a : Dadmm ℝ) (n : ℕ) (G : NxGraph) (F : ℕ → CFun E) (prox : ℕ → E → ℝ → E) (xh : E) : Prop where
  capPos : a.CapPos
  R_pos : 0 < a.R
  step_pos : 0 < a.stepSize
  nodes : 0 < n
  simple : G.Simple
  connected : G.Connected n
  convex : ∀ j < n, ConvexOn ℝ (F j).dom (F j).f
  prox : ∀ j < n, ∀ z rho, 0 < rho → (F j).IsProx rho z (prox j z rho)
  opt : SumOpt n F xh

theorem reach_of_connected {G : NxGraph} {n : ℕ} {deg : ℕ → ℕ} {adj : ℕ → List ℕ} (hN : Net n deg adj)
    (hmem : ∀ j < n, ∀ l, l ∈ adj j ↔ G.IsEdge (j + 1) (l + 1)) (hge : ∀ u v, G.IsEdge u v → 1 ≤ u ∧ 1 ≤ v) {j l : ℕ} (hj : j < n)
    (h : Relation.ReflTransGen G.IsEdge (j + 1) (l + 1)) : Relation.ReflTransGen (fun j l => l ∈ adj j) j l := by
  have : ∀ v, Relation.ReflTransGen G.IsEdge (j + 1) v → 1 ≤ v ∧ v - 1 < n ∧ Relation.ReflTransGen (fun j l => l ∈ adj j) j (v - 1) := by
    intro v hv
    induction hv with
    | refl => exact ⟨by omega, hj, .refl⟩
    | @tail u v _ huv ih =>
      obtain ⟨h1, h2, h3⟩ := ih
      obtain ⟨-, h4⟩ := hge u v huv
      have h5 : v - 1 ∈ adj (u - 1) := (hmem _ h2 _).2 (by rwa [Nat.sub_add_cancel h1, Nat.sub_add_cancel h4])
      exact ⟨h4, hN.lt _ h2 _ h5, h3.tail h5⟩
  exact (this _ h).2.2

/-- **C52**, values: the sum of the functions at the points of the iterations tends to the minimum. -/
theorem C52_values (a : Dadmm ℝ) (n itr : ℕ) (G : NxGraph) (F : ℕ → CFun E) (prox : ℕ → E → ℝ → E) (xh : E) (hset : a.Setting n G F prox xh)
    (hs2 : a.usage < 1) (hi : itr ≠ 0) (st : ℕ → Dadmm.State E) (hrun : a.run n itr G prox = .ok st) :
    Tendsto (fun k => ∑ j ∈ Finset.range n, (F j).f ((st (k + 1)).x j)) atTop (nhds (∑ j ∈ Finset.range n, (F j).f xh)) ∧
      SumMin n F xh := by
  refine ⟨?_, hset.opt.min⟩
  obtain ⟨deg, adj, hN, rfl, hd, hmem, -, hge⟩ := Dadmm.run_net hset.simple hrun hi
  obtain ⟨g, h1, h2⟩ := hset.opt
  obtain ⟨ih, h3, h4⟩ := flow_exists hset.nodes hN (fun j hj => reach_of_connected hN hmem hge hj (hset.connected j hj 0 hset.nodes)) g h2
  refine Dadmm.values_tendsto a hset.capPos hset.step_pos hset.R_pos hN hd hset.convex hset.prox h3 (fun j hj => ?_) ?_
  · rw [h4 j hj]
    exact h1 j hj
  · exact Dadmm.usage_lt hset.R_pos hs2

/-- **C52**, agreement: the points of any two nodes approach each other. -/
theorem C52_consensus (a : Dadmm ℝ) (n itr : ℕ) (G : NxGraph) (F : ℕ → CFun E) (prox : ℕ → E → ℝ → E) (xh : E) (hset : a.Setting n G F prox xh)
    (hs2 : a.usage < 1) (hi : itr ≠ 0) (st : ℕ → Dadmm.State E) (hrun : a.run n itr G prox = .ok st) (j l : ℕ) (hj : j < n) (hl : l < n) :
    Tendsto (fun k => (st (k + 1)).x j - (st (k + 1)).x l) atTop (nhds 0) := by
  obtain ⟨deg, adj, hN, rfl, hd, hmem, -, hge⟩ := Dadmm.run_net hset.simple hrun hi
  obtain ⟨g, h1, h2⟩ := hset.opt
  obtain ⟨ih, h3, h4⟩ := flow_exists hset.nodes hN (fun j hj => reach_of_connected hN hmem hge hj (hset.connected j hj 0 hset.nodes)) g h2
  have hres := Dadmm.resid_tendsto a hset.capPos hset.step_pos hset.R_pos hN hd hset.convex hset.prox h3
    (fun j hj => by rw [h4 j hj]; exact h1 j hj) (Dadmm.usage_lt hset.R_pos hs2)
  -- one end of an edge
  have hend : ∀ j < n, ∀ l ∈ adj j, Tendsto (fun k => (a.states deg adj prox (k + 1)).x j - (a.states deg adj prox (k + 1)).pot adj j l)
      atTop (nhds 0) := by
    intro j hj l hl
    refine squeeze_zero_norm (fun k => ?_) (by simpa using hres.sqrt)
    refine Real.le_sqrt_of_sq_le ?_
    unfold Dadmm.resid ends
    calc _ ≤ ∑ l ∈ nb adj j, ‖(a.states deg adj prox (k + 1)).x j - (a.states deg adj prox (k + 1)).pot adj j l‖ ^ 2 :=
          Finset.single_le_sum (f := fun l => ‖(a.states deg adj prox (k + 1)).x j - (a.states deg adj prox (k + 1)).pot adj j l‖ ^ 2)
            (fun _ _ => by positivity) (mem_nb.2 hl)
      _ ≤ _ := Finset.single_le_sum (f := fun j => ∑ l ∈ nb adj j, ‖(a.states deg adj prox (k + 1)).x j -
          (a.states deg adj prox (k + 1)).pot adj j l‖ ^ 2) (fun _ _ => Finset.sum_nonneg fun _ _ => by positivity) (Finset.mem_range.2 hj)
  have hedge : ∀ j < n, ∀ l ∈ adj j, Tendsto (fun k => (a.states deg adj prox (k + 1)).x j - (a.states deg adj prox (k + 1)).x l)
      atTop (nhds 0) := by
    intro j hj l hl
    have h5 := (hend j hj l hl).sub (hend l (hN.lt j hj l hl) j (hN.symm j hj l hl))
    rw [sub_zero] at h5
    refine h5.congr fun k => ?_
    rw [← (Dadmm.conserved_states a hN (by norm_num) prox (k + 1)).pot j hj l hl]
    abel
  have := reach_of_connected hN hmem hge hj (hset.connected j hj l hl)
  clear hl
  have : l < n ∧ Tendsto (fun k => (a.states deg adj prox (k + 1)).x j - (a.states deg adj prox (k + 1)).x l) atTop (nhds 0) := by
    induction this with
    | refl => exact ⟨hj, by simp⟩
    | @tail u v _ huv ih =>
      refine ⟨hN.lt _ ih.1 _ huv, ?_⟩
      simpa using ih.2.add (hedge _ ih.1 _ huv)
  exact this.2

/-- the lists returned by `dadmm`, when it returns -/
theorem dadmm_ok {a : Dadmm ℝ} {n itr : ℕ} {G : NxGraph} {xstar : ℕ → E} {fstar : ℝ} {prox : ℕ → E → ℝ → E} {f : ℕ → E → ℝ} {res : DadmmResult}
    (h : dadmm a n itr G xstar fstar prox f = .ok res) : ∃ st, a.run n itr G prox = .ok st ∧
      res.errOptStar = (List.range itr).map (fun k => frobDist n (st (k + 1)).x xstar) ∧
      res.fReldiff = (List.range itr).map (fun k => |fstar - ∑ j ∈ Finset.range n, f j ((st (k + 1)).x j)| / fstar) := by
  unfold dadmm at h
  cases hr : a.run n itr G prox with
  | error e => rw [hr] at h; simp [bind, Except.bind] at h
  | ok st =>
    rw [hr] at h
    simp only [bind, Except.bind, pure, Except.pure, Except.ok.injEq] at h
    subst h
    exact ⟨st, rfl, rfl, rfl⟩

theorem run_one {a : Dadmm ℝ} {n itr : ℕ} {G : NxGraph} {prox : ℕ → E → ℝ → E} {st : ℕ → Dadmm.State E} (hi : itr ≠ 0)
    (h : a.run n itr G prox = .ok st) : a.run n 1 G prox = .ok st := by
  rw [Dadmm.run_iff] at h ⊢
  obtain ⟨adj, h1, h2, h3⟩ := h
  exact ⟨adj, h1, fun _ => h2 hi, h3⟩

theorem run_any {a : Dadmm ℝ} {n : ℕ} (itr : ℕ) {G : NxGraph} {prox : ℕ → E → ℝ → E} {st : ℕ → Dadmm.State E}
    (h : a.run n 1 G prox = .ok st) : a.run n itr G prox = .ok st := by
  rw [Dadmm.run_iff] at h ⊢
  obtain ⟨adj, h1, h2, h3⟩ := h
  exact ⟨adj, h1, fun _ => h2 one_ne_zero, h3⟩

theorem list_sum_range (f : ℕ → ℝ) (m : ℕ) : ((List.range m).map f).sum = ∑ t ∈ Finset.range m, f t := by
  induction m with
  | zero => simp
  | succ m ih => rw [List.range_succ, List.map_append, List.sum_append, ih, Finset.sum_range_succ]; simp

theorem get_range_map {f : ℕ → ℝ} {m k : ℕ} {v : ℝ} (h : ((List.range m).map f)[k]? = some v) : k < m ∧ v = f k := by
  rw [List.getElem?_map, Option.map_eq_some_iff] at h
  obtain ⟨k', h1, rfl⟩ := h
  rw [List.getElem?_eq_some_iff] at h1
  obtain ⟨h2, h3⟩ := h1
  rw [List.getElem_range] at h3
  subst h3
  exact ⟨by simpa using h2, rfl⟩

/-- a statement about entries far down a list that does not depend on the number of iterations -/
theorem eventually_small {a : Dadmm ℝ} {n : ℕ} {G : NxGraph} {prox : ℕ → E → ℝ → E} (u : (ℕ → Dadmm.State E) → ℕ → ℝ)
    (h : ∀ st, a.run n 1 G prox = .ok st → Tendsto (u st) atTop (nhds 0)) (eps : ℝ) (he : 0 < eps) :
    ∃ N : ℕ, ∀ (itr : ℕ) (st : ℕ → Dadmm.State E), a.run n itr G prox = .ok st → ∀ (k : ℕ) (v : ℝ), N ≤ k →
      ((List.range itr).map (u st))[k]? = some v → |v| < eps := by
  by_cases hrun : ∃ st, a.run n 1 G prox = .ok st
  · obtain ⟨st, hst⟩ := hrun
    obtain ⟨N, hN⟩ := (Metric.tendsto_atTop.1 (h st hst)) eps he
    refine ⟨N, fun itr st' hst' k v hk hv => ?_⟩
    obtain ⟨h1, rfl⟩ := get_range_map hv
    have h2 := run_one (by omega) hst'
    rw [hst] at h2
    cases h2
    have := hN k hk
    rwa [Real.dist_eq, sub_zero] at this
  · refine ⟨0, fun itr st' hst' k v hk hv => ?_⟩
    obtain ⟨h1, -⟩ := get_range_map hv
    exact absurd ⟨st', run_one (by omega) hst'⟩ hrun

/-- **C52**, reported values: the relative differences of values that `dadmm` returns tend to zero. -/
theorem C52_fReldiff (a : Dadmm ℝ) (n : ℕ) (G : NxGraph) (F : ℕ → CFun E) (prox : ℕ → E → ℝ → E) (xh : E) (hset : a.Setting n G F prox xh)
    (hs2 : a.usage < 1) (xstar : ℕ → E) (eps : ℝ) (he : 0 < eps) :
    ∃ N : ℕ, ∀ (itr : ℕ) (res : DadmmResult), dadmm a n itr G xstar (∑ j ∈ Finset.range n, (F j).f xh) prox (fun j => (F j).f) = .ok res →
      ∀ (k : ℕ) (v : ℝ), N ≤ k → res.fReldiff[k]? = some v → |v| < eps := by
  set fs := ∑ j ∈ Finset.range n, (F j).f xh with hfs
  obtain ⟨N, hN⟩ := eventually_small (a := a) (n := n) (G := G) (prox := prox)
    (fun st k => |fs - ∑ j ∈ Finset.range n, (F j).f ((st (k + 1)).x j)| / fs) (fun st hst => by
      have h1 := (C52_values a n 1 G F prox xh hset hs2 one_ne_zero st hst).1
      have h2 := ((h1.const_sub fs).abs).div_const fs
      rwa [← hfs, sub_self, abs_zero, zero_div] at h2) eps he
  refine ⟨N, fun itr res hres k v hk hv => ?_⟩
  obtain ⟨st, h1, -, h2⟩ := dadmm_ok hres
  rw [h2] at hv
  exact hN itr st h1 k v hk hv

/-- **C52**, strongly convex functions: the squares of the distances to the optimum that `dadmm` returns have a bounded sum, also for
parameters at the limit of stability. -/
theorem C52_errOptStar_sum (a : Dadmm ℝ) (n : ℕ) (G : NxGraph) (F : ℕ → CFun E) (prox : ℕ → E → ℝ → E) (xh : E) (hset : a.Setting n G F prox xh)
    (hs2 : a.usage ≤ 1) (mu : ℝ) (hmu : 0 < mu) (hF : ∀ j < n, StrongConvexOn (F j).dom mu (F j).f) (fstar : ℝ) (f : ℕ → E → ℝ) :
    ∃ B : ℝ, ∀ (itr : ℕ) (res : DadmmResult), dadmm a n itr G (fun _ => xh) fstar prox f = .ok res →
      (res.errOptStar.map (· ^ 2)).sum ≤ B := by
  by_cases hrun : ∃ st, a.run n 1 G prox = .ok st
  · obtain ⟨st, hst⟩ := hrun
    obtain ⟨deg, adj, hN, h0, hd, hmem, -, hge⟩ := Dadmm.run_net hset.simple hst one_ne_zero
    obtain ⟨g, h1, h2⟩ := hset.opt
    obtain ⟨ih, h3, h4⟩ := flow_exists hset.nodes hN (fun j hj => reach_of_connected hN hmem hge hj (hset.connected j hj 0 hset.nodes)) g h2
    have hopt : ∀ j < n, (F j).Sample xh (∑ l ∈ nb adj j, ih j l) ((F j).f xh) := fun j hj => by rw [h4 j hj]; exact h1 j hj
    have hB := Dadmm.sum_gap_le a hset.capPos hset.step_pos hset.R_pos hN hd hset.convex hset.prox h3 hopt
      (Dadmm.usage_le hset.R_pos hs2)
    refine ⟨mu⁻¹ * (Dadmm.energy a n adj xh ih Dadmm.start / 2), fun itr res hres => ?_⟩
    obtain ⟨st', h5, h6, -⟩ := dadmm_ok hres
    rw [h6, List.map_map]
    rcases Nat.eq_zero_or_pos itr with rfl | hi
    · have := hB 0
      simp only [Finset.range_zero, Finset.sum_empty] at this
      simp only [List.range_zero, List.map_nil, List.sum_nil]
      positivity
    · have h7 := run_one (by omega) h5
      rw [hst] at h7
      cases h7
      have h8 : ∀ t, mu * frobDist n (st (t + 1)).x (fun _ => xh) ^ 2 ≤
          Dadmm.gap n adj a.R xh ih (a.states deg adj prox t) (a.states deg adj prox (t + 1)) := by
        intro t
        have := (Dadmm.gap_values a hset.R_pos hN hd hset.convex hset.prox h3 hopt (Dadmm.conserved_states a hN (by norm_num) prox t)).2.1 mu hF
        rw [frobDist, Real.sq_sqrt (Finset.sum_nonneg fun _ _ => by positivity), h0]
        exact this
      have h9 : ((List.range itr).map ((· ^ 2) ∘ fun k => frobDist n (st (k + 1)).x fun _ => xh)).sum =
          ∑ t ∈ Finset.range itr, frobDist n (st (t + 1)).x (fun _ => xh) ^ 2 := by
        rw [list_sum_range]
        rfl
      rw [h9, le_inv_mul_iff₀ hmu, Finset.mul_sum]
      exact (Finset.sum_le_sum fun t _ => h8 t).trans (hB itr)
  · refine ⟨0, fun itr res hres => ?_⟩
    obtain ⟨st', h5, h6, -⟩ := dadmm_ok hres
    rcases Nat.eq_zero_or_pos itr with rfl | hi
    · simp [h6]
    · exact absurd ⟨st', run_one (by omega) h5⟩ hrun

/-- **C52**, strongly convex functions: the distances to the optimum that `dadmm` returns tend to zero. -/
theorem C52_errOptStar (a : Dadmm ℝ) (n : ℕ) (G : NxGraph) (F : ℕ → CFun E) (prox : ℕ → E → ℝ → E) (xh : E) (hset : a.Setting n G F prox xh)
    (hs2 : a.usage ≤ 1) (mu : ℝ) (hmu : 0 < mu) (hF : ∀ j < n, StrongConvexOn (F j).dom mu (F j).f) (fstar : ℝ) (f : ℕ → E → ℝ)
    (eps : ℝ) (he : 0 < eps) :
    ∃ N : ℕ, ∀ (itr : ℕ) (res : DadmmResult), dadmm a n itr G (fun _ => xh) fstar prox f = .ok res →
      ∀ (k : ℕ) (v : ℝ), N ≤ k → res.errOptStar[k]? = some v → |v| < eps := by
  obtain ⟨B, hB⟩ := C52_errOptStar_sum a n G F prox xh hset hs2 mu hmu hF fstar f
  obtain ⟨N, hN⟩ := eventually_small (a := a) (n := n) (G := G) (prox := prox)
    (fun st k => frobDist n (st (k + 1)).x fun _ => xh) (fun st hst => by
      have h1 : Tendsto (fun k => frobDist n (st (k + 1)).x (fun _ => xh) ^ 2) atTop (nhds 0) := by
        refine Dadmm.tendsto_zero_of_sum_le (fun _ => by positivity) (B := B) fun m => ?_
        have h5 := run_any m hst
        have h6 : ∃ res, dadmm a n m G (fun _ => xh) fstar prox f = .ok res := by
          unfold dadmm
          rw [h5]
          exact ⟨_, rfl⟩
        obtain ⟨res, h6⟩ := h6
        have h7 := hB m res h6
        obtain ⟨st', h8, h9, -⟩ := dadmm_ok h6
        rw [h5] at h8
        cases h8
        rw [h9, List.map_map] at h7
        refine le_trans (le_of_eq ?_) h7
        rw [list_sum_range]
        rfl
      have h2 := h1.sqrt
      rw [Real.sqrt_zero] at h2
      exact h2.congr fun k => Real.sqrt_sq (Real.sqrt_nonneg _)) eps he
  refine ⟨N, fun itr res hres k v hk hv => ?_⟩
  obtain ⟨st, h1, h2, -⟩ := dadmm_ok hres
  rw [h2] at hv
  exact hN itr st h1 k v hk hv

/-! ### A concrete case: six nodes, node `j` holds the function `(x - j)² / 2` -/

noncomputable def quadAt (j : ℕ) : CFun ℝ := ⟨Set.univ, fun x => (x - j) ^ 2 / 2⟩

theorem quadAt_strong (j : ℕ) : StrongConvexOn (quadAt j).dom (1 : ℝ) (quadAt j).f := by
  refine ⟨convex_univ, fun x _ y _ a b ha hb hab => ?_⟩
  have hb' : b = 1 - a := by linarith
  subst hb'
  simp only [quadAt, smul_eq_mul, Real.norm_eq_abs, sq_abs]
  nlinarith [sq_nonneg (x - y)]

theorem quadAt_prox (j : ℕ) (z rho : ℝ) (h : 0 < rho) : (quadAt j).IsProx rho z ((z + rho * j) / (1 + rho)) := by
  refine ⟨trivial, fun y _ => ?_⟩
  simp only [quadAt, Real.norm_eq_abs, sq_abs]
  have h1 : (y - j) ^ 2 / 2 + (y - z) ^ 2 / (2 * rho) - (((z + rho * j) / (1 + rho) - j) ^ 2 / 2 + ((z + rho * j) / (1 + rho) - z) ^ 2 / (2 * rho)) =
      (1 + rho) / (2 * rho) * (y - (z + rho * j) / (1 + rho)) ^ 2 := by
    have : 1 + rho ≠ 0 := by positivity
    field_simp
    ring
  have h2 : 0 ≤ (1 + rho) / (2 * rho) * (y - (z + rho * j) / (1 + rho)) ^ 2 := by positivity
  linarith

theorem quadAt_opt : SumOpt 6 quadAt (5 / 2) := by
  refine ⟨fun j => 5 / 2 - j, fun j _ => ⟨trivial, rfl, fun y _ => ?_⟩, ?_⟩
  · simp only [quadAt]
    change (5 / 2 - (j : ℝ)) ^ 2 / 2 + (y - 5 / 2) * (5 / 2 - (j : ℝ)) ≤ (y - j) ^ 2 / 2
    nlinarith [sq_nonneg (y - 5 / 2)]
  · simp [Finset.sum_range_succ]
    norm_num

theorem quadAt_setting (a : Dadmm ℝ) (h1 : a.CapPos) (h2 : 0 < a.R) (h3 : 0 < a.stepSize) :
    a.Setting 6 graph6 quadAt (fun j z rho => (z + rho * j) / (1 + rho)) (5 / 2) :=
  ⟨h1, h2, h3, by norm_num, NxGraph.simple_graph6, NxGraph.connected_graph6,
    fun j _ => (quadAt_strong j).convexOn (fun r => by positivity), fun j _ z rho h => quadAt_prox j z rho h, quadAt_opt⟩

/-- the hypotheses of the C52 theorems can be met, for instance by the 6-node network with `R = 2`, `h = 3`, `Inductance = 4` -/
example : (Dadmm.circuit 2 3 4).Setting 6 graph6 quadAt (fun j z rho => (z + rho * j) / (1 + rho)) (5 / 2) ∧
    (Dadmm.circuit 2 3 4 : Dadmm ℝ).usage < 1 ∧
    (∃ st, (Dadmm.circuit 2 3 4).run 6 1000 graph6 (fun j z rho => (z + rho * (j : ℝ)) / (1 + rho)) = .ok st) ∧
    (∀ j < 6, StrongConvexOn (quadAt j).dom (1 : ℝ) (quadAt j).f) ∧ ∑ j ∈ Finset.range 6, (quadAt j).f (5 / 2) ≠ 0 := by
  refine ⟨quadAt_setting _ (fun _ _ _ _ h => by cases h) (by norm_num [Dadmm.R]) (by norm_num [Dadmm.stepSize]), by norm_num [Dadmm.usage],
    run_graph6 _ _ _, fun j _ => quadAt_strong j, ?_⟩
  simp only [quadAt, Finset.sum_range_succ, Finset.range_zero, Finset.sum_empty]
  norm_num

/-- and with the capacitor, with the parameters of the notebook for the geometric median (`dgeom_median_experiment.ipynb`); the 6-node network
has the edge between the positions 3 and 4 that carries the capacitor -/
example : (Dadmm.capacitor 0.8 3.51541700023903 2 15).Setting 6 graph6 quadAt (fun j z rho => (z + rho * j) / (1 + rho)) (5 / 2) ∧
    (Dadmm.capacitor 0.8 3.51541700023903 2 15 : Dadmm ℝ).usage < 1 ∧ graph6.IsEdge 4 5 ∧
    (∃ st, (Dadmm.capacitor 0.8 3.51541700023903 2 15).run 6 1000 graph6 (fun j z rho => (z + rho * (j : ℝ)) / (1 + rho)) = .ok st) := by
  refine ⟨quadAt_setting _ (fun _ _ _ _ h => by injection h with h1 h2 h3 h4; constructor <;> [rw [← h2]; rw [← h4]] <;> norm_num) (by norm_num [Dadmm.R])
    (by norm_num [Dadmm.stepSize]), by norm_num [Dadmm.usage], ?_, run_graph6 _ _ _⟩
  exact ⟨[2, 3, 5, 6], by decide, by decide⟩

end Verif
