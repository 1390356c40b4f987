import Verif.Proofs.SlaterQuad
import Mathlib.Algebra.Polynomial.Roots
import Mathlib.Algebra.Polynomial.Eval.Degree

/-!
# Completeness from strict runs, and generic choices
-/

namespace Verif
open Heap

variable {C : CAS} {prog : List Instr} {params : List Name}

/-- a run on the real line with strict functions, evaluated at different points, in which the extra constraints are strict inequalities -/
structure StrictRun (prog : List Instr) (env : Name → ℝ) (fs : ℕ → CFun ℝ) (V : Vals ℝ) : Prop where
  inst : Instance prog fs
  strict : ∀ k d, (decls prog)[k]? = some d → (fs k).StrictIn d.cls
  meets : MeetsAll (fun k => (fs k).Sample) env V prog ⟨0, 0, 0⟩ 0
  cons : ∀ c ∈ consVals V prog, c.2 = .inequality ∧ c.1 < 0
  dist : ∀ k < (decls prog).length, ((calls k prog).map V.pt).Nodup

theorem StrictRun.exec {env : Name → ℝ} {fs : ℕ → CFun ℝ} {V : Vals ℝ} (s : StrictRun prog env fs V) (hs : SafeProg prog ⟨0, 0, 0⟩ = true) :
    ∃ rr, RealExec fs env prog rr ∧ Distinct prog rr ∧ ∀ c ∈ rr.cons, c.2 = .inequality ∧ c.1 < 0 := by
  obtain ⟨rr, ex, h1, h2⟩ := exec_of_meets_pts (m := none) (cs := []) prog hs s.meets (rr := RRegs.empty ℝ) ⟨rfl, rfl, rfl, rfl, rfl, rfl⟩
  refine ⟨rr, ex, fun k hk => ?_, by rw [h1]; exact s.cons⟩
  have hlt : ∀ n ∈ calls k prog, n < (countsAfter prog ⟨0, 0, 0⟩).np := calls_lt k prog hs
  refine ⟨fun n hn => by rw [h2]; simpa using hlt n hn, ?_⟩
  have : (calls k prog).map (fun n => rr.pts.getD n 0) = (calls k prog).map V.pt :=
    List.map_congr_left fun n hn => by rw [h2, getD_range_map _ _ (hlt n hn)]
  rw [this]
  exact s.dist k hk

/-- If `solve_ipopt` is applied to a standard program with strict runs at all parameter values of a set, its nonlinear program has a feasible
point at parameter values of this set iff the guarantee holds at them. -/
theorem complete_of_runs (hC : C.Lawful) (hs : SafeProg prog ⟨0, 0, 0⟩ = true) (hclean : ∀ i ∈ prog, i.Clean {n | n ∈ params})
    (hst : Standard prog = true) (hd : ∀ d ∈ decls prog, d.Ok ∧ d.Default = true) (s : SimpleParams params) (hmet : ∃ e, Instr.metric e ∈ prog)
    {Gen : (Name → ℝ) → Prop} (hne : ∃ env, Gen env) (hw : ∀ env, Gen env → ∃ fs V, StrictRun prog env fs V) :
    ∃ r h nlp h', runProblem C prog Heap.empty = .ok (r, h) ∧ solveIpopt C r params [] [] h = .ok (nlp, h') ∧
      ∀ env, Gen env → ((∃ σ, nlp.state.Sat σ ∧ ∀ n ∈ scalarNames params, nlp.state.value σ n = env n) ↔
        Guaranteed prog env ∧ InvOk params env ∧ ∀ n ∈ ["eta", "rho", "h"], 0 ≤ env n) := by
  obtain ⟨⟨r, h⟩, hr⟩ := (C04_errors hC prog Heap.empty).2 hs
  have hok : ∀ d ∈ decls prog, d.Ok := fun d hm => (hd d hm).1
  obtain ⟨env0, h0⟩ := hne
  obtain ⟨fs0, V0, run0⟩ := hw env0 h0
  obtain ⟨rr0, ex0, hdist0, -⟩ := run0.exec hs
  obtain ⟨nlp, h', hn⟩ := (C63_ipopt (bounds := []) (init := []) hC hr hclean s hok (by simp) (by simp)).2
    ⟨hmet, nodup_of_calls hC hr hst run0.inst ex0 hdist0⟩
  obtain ⟨sm, hm, hiff⟩ := C68_ipopt hC hr hclean hst hd s (by simp) hn
  refine ⟨r, h, nlp, h', hr, hn, fun env hg => ?_⟩
  obtain ⟨fs, V, run⟩ := hw env hg
  obtain ⟨rr, ex, hdist, hcons⟩ := run.exec hs
  have t := translate_of hC hr (solvable_of_ok hC hr hok hm) hm
  rw [hiff env (strict_of_exec hC hr t (qcqp_clean hC hr hclean hm) hst run.inst run.strict ex hdist hcons)]
  simp [BoundsOk]

/-! ### Generic choices -/

/-- `f` is given by a polynomial -/
def IsPoly (f : ℝ → ℝ) : Prop := ∃ P : Polynomial ℝ, ∀ t, f t = P.eval t

theorem IsPoly.const (a : ℝ) : IsPoly fun _ => a := ⟨.C a, by simp⟩
theorem IsPoly.id : IsPoly fun t => t := ⟨.X, by simp⟩
theorem IsPoly.add {f g : ℝ → ℝ} (hf : IsPoly f) (hg : IsPoly g) : IsPoly fun t => f t + g t := by
  obtain ⟨P, hP⟩ := hf; obtain ⟨Q, hQ⟩ := hg; exact ⟨P + Q, fun t => by simp [hP, hQ]⟩
theorem IsPoly.sub {f g : ℝ → ℝ} (hf : IsPoly f) (hg : IsPoly g) : IsPoly fun t => f t - g t := by
  obtain ⟨P, hP⟩ := hf; obtain ⟨Q, hQ⟩ := hg; exact ⟨P - Q, fun t => by simp [hP, hQ]⟩
theorem IsPoly.mul {f g : ℝ → ℝ} (hf : IsPoly f) (hg : IsPoly g) : IsPoly fun t => f t * g t := by
  obtain ⟨P, hP⟩ := hf; obtain ⟨Q, hQ⟩ := hg; exact ⟨P * Q, fun t => by simp [hP, hQ]⟩
theorem IsPoly.neg {f : ℝ → ℝ} (hf : IsPoly f) : IsPoly fun t => - f t := by
  obtain ⟨P, hP⟩ := hf; exact ⟨-P, fun t => by simp [hP]⟩
theorem IsPoly.div {f : ℝ → ℝ} (hf : IsPoly f) (a : ℝ) : IsPoly fun t => f t / a := by
  simpa only [div_eq_mul_inv] using hf.mul (.const a⁻¹)
theorem IsPoly.pow {f : ℝ → ℝ} (hf : IsPoly f) (n : ℕ) : IsPoly fun t => f t ^ n := by
  obtain ⟨P, hP⟩ := hf; exact ⟨P ^ n, fun t => by simp [hP]⟩

/-- shows that an expression is a polynomial -/
macro "is_poly" : tactic => `(tactic| (
  repeat' first
    | exact IsPoly.const _
    | exact IsPoly.id
    | apply IsPoly.add
    | apply IsPoly.sub
    | apply IsPoly.mul
    | apply IsPoly.neg
    | apply IsPoly.div
    | apply IsPoly.pow))

theorem IsPoly.infinite_ne {f : ℝ → ℝ} (hf : IsPoly f) (hne : ∃ t, f t ≠ 0) {S : Set ℝ} (hS : S.Infinite) : {t ∈ S | f t ≠ 0}.Infinite := by
  obtain ⟨P, hP⟩ := hf
  obtain ⟨t, ht⟩ := hne
  have hP0 : P ≠ 0 := by rintro rfl; exact ht (by rw [hP]; simp)
  have hfin : {t : ℝ | f t = 0}.Finite := by
    have : {t : ℝ | f t = 0} = {t : ℝ | P.IsRoot t} := by ext t; simp [hP, Polynomial.IsRoot]
    rw [this]
    exact Polynomial.finite_setOfPred_isRoot hP0
  refine (hS.sdiff hfin).mono ?_
  rintro t ⟨h1, h2⟩
  exact ⟨h1, h2⟩

/-- finitely many polynomials that are not 0 have a common non-root in every infinite set -/
theorem generic (l : List (ℝ → ℝ)) : ∀ {S : Set ℝ}, S.Infinite → (∀ f ∈ l, IsPoly f ∧ ∃ t, f t ≠ 0) → {t ∈ S | ∀ f ∈ l, f t ≠ 0}.Infinite := by
  induction l with
  | nil => intro S hS _; simpa using hS
  | cons f l ih =>
    intro S hS hl
    have h1 := (hl f (by simp)).1.infinite_ne (hl f (by simp)).2 hS
    refine (ih h1 fun g hg => hl g (by simp [hg])).mono ?_
    rintro t ⟨⟨h2, h3⟩, h4⟩
    refine ⟨h2, fun g hg => ?_⟩
    rcases List.mem_cons.1 hg with rfl | hg
    · exact h3
    · exact h4 g hg

theorem inside_infinite {mu : ℚ} {L : Option ℚ} (hok : (defDecl mu L).Ok) : {c : ℝ | Inside mu L c}.Infinite := by
  cases L with
  | none => exact (Set.Ioi_infinite (mu : ℝ)).mono fun c hc => ⟨hc, by simp⟩
  | some l =>
    have : mu < l := by
      unfold defDecl at hok
      split at hok
      · exact hok.2
      · rename_i h
        simp only [Option.isSome_some, and_true, ne_eq, not_not] at h
        subst h
        simpa [FnDecl.Ok] using hok
    refine (Set.Ioo_infinite (show (mu : ℝ) < l by exact_mod_cast this)).mono fun c hc => ⟨hc.1, ?_⟩
    intro l' h; cases h; exact hc.2

theorem defDecl_nonneg {mu : ℚ} {L : Option ℚ} (hok : (defDecl mu L).Ok) : 0 ≤ mu := by
  unfold defDecl at hok
  split at hok
  · rename_i h
    obtain ⟨l, rfl⟩ := Option.isSome_iff_exists.1 h.2
    exact hok.1
  · split at hok
    · exact hok
    · rename_i h; simp at h; exact h.ge

/-- two free choices: polynomials in both variables that are not 0 -/
theorem generic2 {l : List (ℝ → ℝ → ℝ)} {S T : Set ℝ} (hS : S.Infinite) (hT : T.Infinite)
    (hl : ∀ f ∈ l, (∀ c, IsPoly fun t => f t c) ∧ (∀ t, IsPoly fun c => f t c) ∧ ∃ t c, f t c ≠ 0) : ∃ t ∈ T, ∃ c ∈ S, ∀ f ∈ l, f t c ≠ 0 := by
  have h1 : {t ∈ T | ∀ f ∈ l, ∃ c, f t c ≠ 0}.Infinite := by
    choose! t c hc using fun f (hf : f ∈ l) => (hl f hf).2.2
    have := generic (l.map fun f => fun t => f t (c f)) hT (by
      intro g hg
      obtain ⟨f, hf, rfl⟩ := List.mem_map.1 hg
      exact ⟨(hl f hf).1 _, t f, hc f hf⟩)
    refine this.mono ?_
    rintro t ⟨h2, h3⟩
    exact ⟨h2, fun f hf => ⟨c f, h3 _ (List.mem_map_of_mem hf)⟩⟩
  obtain ⟨t, ht, h2⟩ := h1.nonempty
  have h3 := generic (l.map fun f => f t) hS (by
    intro g hg
    obtain ⟨f, hf, rfl⟩ := List.mem_map.1 hg
    exact ⟨(hl f hf).2.1 t, h2 f hf⟩)
  obtain ⟨c, hc, h4⟩ := h3.nonempty
  exact ⟨t, ht, c, hc, fun f hf => h4 _ (List.mem_map_of_mem hf)⟩

end Verif
