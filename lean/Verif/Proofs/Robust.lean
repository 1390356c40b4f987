import Verif.Proofs.CircuitFeasible
import Verif.Proofs.BuildCalls

/-! # Executions that violate the extra constraints; lemmas -/

namespace Verif
open scoped InnerProductSpace

section metric
variable {E : Type} [NormedAddCommGroup E] [InnerProductSpace ℝ E] {env : Name → ℝ} {SR : ℕ → E → E → ℝ → Prop}

theorem realStep_metric {i : Instr} {a b c : RRegs E} (h : Step SR env i a b) (hs : i.Safe a.counts = true) (hp : b.Prefix c) {m : Option ℕ}
    (hm : a.metric = m.map c.vals.ex) : b.metric = (metricReg [i] m).map c.vals.ex := by
  have hpa : a.Prefix c := (step_prefix h).trans hp
  cases h with
  | metric _ e =>
    simp only [Instr.Safe, decide_eq_true_eq] at hs
    simp only [RRegs.counts] at hs
    show some (a.exs.getD e 0) = some (c.exs.getD e 0)
    rw [prefix_getD hpa.exs hs]
  | _ => exact hm

theorem exec_metric {prog : List Instr} {a b : RRegs E} (h : Exec SR env prog a b) :
    ∀ {c : RRegs E} {m : Option ℕ}, SafeProg prog a.counts = true → b.Prefix c → a.metric = m.map c.vals.ex →
      b.metric = (metricReg prog m).map c.vals.ex := by
  induction h with
  | nil => exact fun _ _ h => h
  | cons h t ih =>
    intro c m hs hp hm
    simp only [SafeProg, Bool.and_eq_true] at hs
    have hc := step_counts h
    rw [metricReg_cons]
    exact ih (by rw [hc.1]; exact hs.2) hp (realStep_metric h hs.1 ((exec_prefix t).trans hp) hm)

theorem metric_of_realExec {fs : ℕ → CFun E} {prog : List Instr} (hs : SafeProg prog ⟨0, 0, 0⟩ = true) {rr : RRegs E}
    (h : RealExec fs env prog rr) : rr.metric = (metricReg prog none).map rr.vals.ex :=
  exec_metric h hs .rfl rfl

/-- a sample of one declared function -/
theorem sample_of_single {k : ℕ} {x g : E} {v : ℝ} (h : SumSample SR (Finsupp.single k 1) x g v) : SR k x g v := by
  obtain ⟨G, V, a, rfl, rfl⟩ := h
  rw [Finsupp.sum_single_index (by simp), Finsupp.sum_single_index (by simp), one_smul, one_mul]
  exact a k (by simp)

end metric

/-- a guarantee, from the equations of the program -/
theorem guaranteed_of_vals {prog : List Instr} {env : Name → ℝ} (hs : SafeProg prog ⟨0, 0, 0⟩ = true) {e : ℕ} (he : metricReg prog none = some e)
    (h : ∀ {E : Type} [NormedAddCommGroup E] [InnerProductSpace ℝ E] (fs : ℕ → CFun E), Instance prog fs → ∀ V : Vals E,
      MeetsAll (fun k => (fs k).Sample) env V prog ⟨0, 0, 0⟩ 0 → (∀ c, (c, .equality) ∈ consVals V prog → c = 0) → V.ex e ≤ 0) :
    Guaranteed prog env := by
  intro E _ _ fs hi rr hx hcons v hv
  obtain ⟨h1, h2⟩ := meets_of_realExec hs hx
  rw [metric_of_realExec hs hx, he] at hv
  injection hv with hv
  rw [← hv]
  exact h fs hi _ h1 fun c hc => hcons (c, .equality) (by rw [h2]; exact hc)

/-- C26 without assuming the extra constraints -/
theorem robust_of_feasible {C : CAS} (hC : C.Lawful) {prog : List Instr} {params : List Name} {env : Name → ℝ}
    (hclean : ∀ i ∈ prog, i.Clean {n | n ∈ params}) (hpl : ∀ n ∈ params, Plain n) (hnd : ∀ n ∈ params, ¬ IsDual n)
    (hok : ∀ d ∈ decls prog, d.Ok) (h : IpoptFeasible C prog params env) :
    ∃ K : ℝ, 0 ≤ K ∧ ∀ {E : Type} [NormedAddCommGroup E] [InnerProductSpace ℝ E] (fs : ℕ → CFun E), Instance prog fs → ∀ rr : RRegs E,
      RealExec fs env prog rr → ∀ v, rr.metric = some v → v ≤ K * rr.violation := by
  obtain ⟨r, h, bounds, init, nlp, h', σ, hr, hn, hσ, rfl⟩ := h
  have hc0 : h.Clean {n | n ∈ params} := keeps_prog hC prog _ hclean _ _ _ (clean_reset clean_empty) hr
  obtain ⟨sm0, h1, -⟩ := solveIpopt_inv hn
  have hs := solvable_of_ok hC hr hok h1
  have hc : h'.Clean {n | n ∈ params} := keeps_problemMatrices hC r _ _ _ hc0 h1
  obtain ⟨sm, pid, t, d, -⟩ := solveIpopt_dual hC hr hs hn hc (fun n hn => hn) hpl hnd hσ
  refine ⟨_, List.sum_nonneg fun x hx => ?_, fun fs hf rr ex v hv => slack_duality hC hr t hc hok d (IsPSD.ppt _ _) hf ex hv⟩
  obtain ⟨en, -, rfl⟩ := List.mem_map.1 hx
  exact abs_nonneg _

/-- the metric is at most `K` times the violation of the extra constraints -/
def RobustBy (prog : List Instr) (env : Name → ℝ) (K : ℝ) : Prop :=
  ∀ {E : Type} [NormedAddCommGroup E] [InnerProductSpace ℝ E] (fs : ℕ → CFun E), Instance prog fs → ∀ rr : RRegs E,
    RealExec fs env prog rr → ∀ v, rr.metric = some v → v ≤ K * rr.violation

theorem RobustBy.vals {E : Type} [NormedAddCommGroup E] [InnerProductSpace ℝ E] {prog : List Instr} {env : Name → ℝ} {K : ℝ} (hc : RobustBy prog env K)
    (hs : SafeProg prog ⟨0, 0, 0⟩ = true) {fs : ℕ → CFun E} (hi : Instance prog fs) (V : Vals E)
    (hm : MeetsAll (fun k => (fs k).Sample) env V prog ⟨0, 0, 0⟩ 0) {cs : List ℝ} (hcons : consVals V prog = cs.map fun c => (c, .equality))
    {e : ℕ} (he : metricReg prog none = some e) : V.ex e ≤ K * (cs.map abs).sum := by
  obtain ⟨rr, hx, h1, h2⟩ := realExec_of_meets hs hm
  have := hc fs hi rr hx _ (by rw [h2, he]; rfl)
  rw [RRegs.violation, h1, hcons, List.map_map] at this
  exact this

/-- a linear function on the reals -/
def linFun (s : ℝ) : CFun ℝ := ⟨Set.univ, fun x => s * x⟩

theorem linFun_sample (s x : ℝ) : (linFun s).Sample x s (s * x) := by
  refine ⟨trivial, rfl, fun y _ => ?_⟩
  show s * x + (y - x) * s ≤ s * y
  linarith

theorem linFun_convex (s : ℝ) : ConvexOn ℝ Set.univ (linFun s).f :=
  ⟨convex_univ, fun x _ y _ a b _ _ _ => le_of_eq (by simp [linFun]; ring)⟩

/-- linear functions are in every class without strong convexity -/
theorem linFun_holds (s : ℝ) {L : Option ℚ} (hok : (defDecl 0 L).Ok) : (defDecl 0 L).Holds (linFun s) := by
  cases L with
  | none => exact ⟨linFun_convex s, fun h => by cases h⟩
  | some L =>
    refine ⟨rfl, linFun_convex s, fun _ => s, fun x => ?_, fun x y => ?_⟩
    · have := (hasDerivAt_id x).const_mul s
      rw [hasFDerivAt_iff_hasDerivAt]
      simpa [linFun] using this
    · have : (0 : ℝ) < L := by exact_mod_cast hok
      simp; positivity

end Verif
