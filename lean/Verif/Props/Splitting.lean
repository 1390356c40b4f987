import Verif.Props.CompleteDys
import Verif.Props.Lower

/-!
# The splitting circuits: verification mode (C73) and lowered weights (C80)

`C69_douglasRachford` and `C69_davisYin` describe the nonlinear programs of the two splitting circuits exactly.  Here the same inequality decides what
PEPit returns in verification mode, and a lowered dictionary is shown to be again a feasible point.
-/

namespace Verif
open Build

/-- **C73** for `douglas_rachford_splitting` (`classical_central_vi.py` 344-390) with smooth functions: PEPit's worst case in verification mode is 0 exactly if the energy inequality
holds for all functions of the class and all steps. -/
theorem C73_douglasRachford {mu L R Ind : ℚ} (hmu : 0 ≤ mu) (hL : mu < L) {res : Dict Name ℝ} {P : PepProblem}
    (hP : (Circuit.douglasRachford mu (some L) R Ind).verify res = .ok P) : P.worstCase = 0 ↔ DouglasRachfordStep mu L R Ind P.value := by
  have hok := defDecl_ok hmu hL
  rw [← guaranteed_douglasRachford R Ind hmu hL]
  rcases C73_worst_case hP (by
    simp only [Circuit.prog]
    calls_simp [douglasRachford]
    simp [decls, hok]) with h | h
  · exact ⟨fun _ => h.2, fun _ => h.1⟩
  · exact ⟨fun h0 => (EReal.top_ne_zero (h.1.symm.trans h0)).elim, fun hg => (h.2 hg).elim⟩

/-- **C73.** For `douglas_rachford_splitting` with smooth functions verification accepts exactly what `solve_ipopt` can find: the worst case at a dictionary with `eta`, `rho`, `h` not
negative is 0 if and only if its values are those of a feasible point of the nonlinear program. -/
theorem C73_douglasRachford_exact {C : CAS} (hC : C.Lawful) {mu L R Ind : ℚ} (hmu : 0 ≤ mu) (hL : mu < L) (hR : 0 < R) {res : Dict Name ℝ} {P : PepProblem}
    (hP : (Circuit.douglasRachford mu (some L) R Ind).verify res = .ok P) (h0 : ∀ n ∈ ["eta", "rho", "h"], 0 ≤ P.value n) :
    ∃ r h nlp h', runProblem C (douglasRachford mu (some L) R Ind).prog Heap.empty = .ok (r, h) ∧ solveIpopt C r stdParams [] [] h = .ok (nlp, h') ∧
      (P.worstCase = 0 ↔ ∃ σ, nlp.state.Sat σ ∧ ∀ n ∈ scalarNames stdParams, nlp.state.value σ n = P.value n) := by
  obtain ⟨r, h, nlp, h', h1, h2, hiff⟩ := C69_douglasRachford hC R Ind hmu hL hR
  refine ⟨r, h, nlp, h', h1, h2, ?_⟩
  rw [hiff, C73_douglasRachford hmu hL hP]
  simp at h0
  simp [h0]

/-- **C80** for the program of `douglas_rachford_splitting` with smooth functions (`examples/centralized/drs.ipynb` lowers `eta` by 0.2 before verification), at all parameter values: if the program has a feasible point, it also has one with smaller weights `eta`, `rho`
that are not negative and the same other values. -/
theorem C80_douglasRachford_program {C : CAS} (hC : C.Lawful) {mu L : ℚ} (R Ind : ℚ) (hmu : 0 ≤ mu) (hL : mu < L) (hR : 0 < R) :
    ∃ r h nlp h', runProblem C (douglasRachford mu (some L) R Ind).prog Heap.empty = .ok (r, h) ∧ solveIpopt C r stdParams [] [] h = .ok (nlp, h') ∧
      ∀ p q : Name → ℝ, (∀ n, n ≠ "eta" → n ≠ "rho" → q n = p n) → q "eta" ≤ p "eta" → q "rho" ≤ p "rho" → 0 ≤ q "eta" → 0 ≤ q "rho" →
        (∃ σ, nlp.state.Sat σ ∧ ∀ n ∈ scalarNames stdParams, nlp.state.value σ n = p n) → ∃ σ, nlp.state.Sat σ ∧ ∀ n ∈ scalarNames stdParams, nlp.state.value σ n = q n := by
  obtain ⟨r, h, nlp, h', h1, h2, hiff⟩ := C69_douglasRachford hC R Ind hmu hL hR
  refine ⟨r, h, nlp, h', h1, h2, fun p q hpq he hr he0 hr0 hσ => ?_⟩
  obtain ⟨g1, g2⟩ := (hiff p).1 hσ
  rw [← guaranteed_douglasRachford R Ind hmu hL] at g1
  refine (hiff q).2 ⟨(guaranteed_douglasRachford R Ind hmu hL).1 ?_, he0, hr0, by rw [hpq "h" (by decide) (by decide)]; exact g2.2.2⟩
  exact C80_lower (c := .douglasRachford mu (some L) R Ind) hR hpq he hr g1

/-- **C73** for `davis_yin_splitting` (`classical_central_vi.py` 393-451) with smooth functions: PEPit's worst case in verification mode is 0 exactly if the energy inequality
holds for all functions of the class and all steps. -/
theorem C73_davisYin {mu L R Ind : ℚ} (hmu : 0 ≤ mu) (hL : mu < L) (hR : 0 < R) {res : Dict Name ℝ} {P : PepProblem}
    (hP : (Circuit.davisYin mu (some L) R Ind).verify res = .ok P) : P.worstCase = 0 ↔ DavisYinStep mu L R Ind P.value := by
  have hok := defDecl_ok hmu hL
  rw [← guaranteed_davisYin R Ind hmu hL hR.ne']
  rcases C73_worst_case hP (by
    simp only [Circuit.prog]
    calls_simp [davisYin]
    simp [decls, hok]) with h | h
  · exact ⟨fun _ => h.2, fun _ => h.1⟩
  · exact ⟨fun h0 => (EReal.top_ne_zero (h.1.symm.trans h0)).elim, fun hg => (h.2 hg).elim⟩

/-- **C73.** For `davis_yin_splitting` with smooth functions verification accepts exactly what `solve_ipopt` can find: the worst case at a dictionary with `eta`, `rho`, `h` not
negative is 0 if and only if its values are those of a feasible point of the nonlinear program. -/
theorem C73_davisYin_exact {C : CAS} (hC : C.Lawful) {mu L R Ind : ℚ} (hmu : 0 ≤ mu) (hL : mu < L) (hR : 0 < R) {res : Dict Name ℝ} {P : PepProblem}
    (hP : (Circuit.davisYin mu (some L) R Ind).verify res = .ok P) (h0 : ∀ n ∈ ["eta", "rho", "h"], 0 ≤ P.value n) :
    ∃ r h nlp h', runProblem C (davisYin mu (some L) R Ind).prog Heap.empty = .ok (r, h) ∧ solveIpopt C r stdParams [] [] h = .ok (nlp, h') ∧
      (P.worstCase = 0 ↔ ∃ σ, nlp.state.Sat σ ∧ ∀ n ∈ scalarNames stdParams, nlp.state.value σ n = P.value n) := by
  obtain ⟨r, h, nlp, h', h1, h2, hiff⟩ := C69_davisYin hC R Ind hmu hL hR
  refine ⟨r, h, nlp, h', h1, h2, ?_⟩
  rw [hiff, C73_davisYin hmu hL hR hP]
  simp at h0
  simp [h0]

/-- **C80** for the program of `davis_yin_splitting` with smooth functions, at all parameter values: if the program has a feasible point, it also has one with smaller weights `eta`, `rho`
that are not negative and the same other values. -/
theorem C80_davisYin_program {C : CAS} (hC : C.Lawful) {mu L : ℚ} (R Ind : ℚ) (hmu : 0 ≤ mu) (hL : mu < L) (hR : 0 < R) :
    ∃ r h nlp h', runProblem C (davisYin mu (some L) R Ind).prog Heap.empty = .ok (r, h) ∧ solveIpopt C r stdParams [] [] h = .ok (nlp, h') ∧
      ∀ p q : Name → ℝ, (∀ n, n ≠ "eta" → n ≠ "rho" → q n = p n) → q "eta" ≤ p "eta" → q "rho" ≤ p "rho" → 0 ≤ q "eta" → 0 ≤ q "rho" →
        (∃ σ, nlp.state.Sat σ ∧ ∀ n ∈ scalarNames stdParams, nlp.state.value σ n = p n) → ∃ σ, nlp.state.Sat σ ∧ ∀ n ∈ scalarNames stdParams, nlp.state.value σ n = q n := by
  obtain ⟨r, h, nlp, h', h1, h2, hiff⟩ := C69_davisYin hC R Ind hmu hL hR
  refine ⟨r, h, nlp, h', h1, h2, fun p q hpq he hr he0 hr0 hσ => ?_⟩
  obtain ⟨g1, g2⟩ := (hiff p).1 hσ
  rw [← guaranteed_davisYin R Ind hmu hL hR.ne'] at g1
  refine (hiff q).2 ⟨(guaranteed_davisYin R Ind hmu hL hR.ne').1 ?_, he0, hr0, by rw [hpq "h" (by decide) (by decide)]; exact g2.2.2⟩
  exact C80_lower (c := .davisYin mu (some L) R Ind) hR hpq he hr g1

/-! ### The hypotheses can be met -/

/-- the classes `0 ≤ mu < L` and positive resistances of the theorems above exist, and a complete dictionary gives a verification problem -/
example : ∃ P, (Circuit.douglasRachford 0 (some 1) 1 1).verify
    [("alpha", 1), ("beta", 1 / 2), ("delta", 0), ("eta", 1), ("gamma", 1), ("h", 1 / 2), ("rho", 0)] = .ok P ∧ ∀ n ∈ ["eta", "rho", "h"], 0 ≤ P.value n := by
  obtain ⟨r, h, -, -, hr, -⟩ := C69_douglasRachford refCAS_lawful (mu := 0) (L := 1) 1 1 (by norm_num) (by norm_num) (by norm_num)
  obtain ⟨P, hP, h1, h2⟩ := C73_builds (c := .douglasRachford 0 (some 1) 1 1)
    (params := [("alpha", 1), ("beta", 1 / 2), ("delta", 0), ("eta", 1), ("gamma", 1), ("h", 1 / 2), ("rho", 0)]) hr (by simp [Circuit.IsDual])
    (by simp [Circuit.keys, Dict.get?])
  refine ⟨P, hP, ?_⟩
  simp [Circuit.keys, Dict.get?] at h2
  simp [← h2]

example : ∃ P, (Circuit.davisYin 0 (some 1) 1 1).verify
    [("alpha", 1), ("beta", 1 / 2), ("delta", 0), ("eta", 1), ("gamma", 1), ("h", 1 / 2), ("rho", 0)] = .ok P ∧ ∀ n ∈ ["eta", "rho", "h"], 0 ≤ P.value n := by
  obtain ⟨r, h, -, -, hr, -⟩ := C69_davisYin refCAS_lawful (mu := 0) (L := 1) 1 1 (by norm_num) (by norm_num) (by norm_num)
  obtain ⟨P, hP, h1, h2⟩ := C73_builds (c := .davisYin 0 (some 1) 1 1)
    (params := [("alpha", 1), ("beta", 1 / 2), ("delta", 0), ("eta", 1), ("gamma", 1), ("h", 1 / 2), ("rho", 0)]) hr (by simp [Circuit.IsDual])
    (by simp [Circuit.keys, Dict.get?])
  refine ⟨P, hP, ?_⟩
  simp [Circuit.keys, Dict.get?] at h2
  simp [← h2]

end Verif
