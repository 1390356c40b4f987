import Verif.Proofs.VerificationCircuits
import Verif.Model.GurobiReport
import Verif.Props.Dispatch
import Verif.Props.Complete
import Verif.Props.CircuitCerts
import Verif.Props.GradientDescent

/-!
# C73: verification of a solution with PEPit

`circuit(..., params=d)` builds the PEPit problem of the method with the step sizes in `d`; its `solve()` computes the worst case of the
performance metric (`PepProblem.worstCase`).
-/

namespace Verif
open Build

/-! ### Which calls succeed -/

theorem Circuit.clean (c : Circuit) : ∀ i ∈ c.prog, i.Clean {n | n ∈ c.keys} := fun i hi => (c.facts.1 i hi).1

theorem Circuit.keys_params (c : Circuit) : ∀ n ∈ c.keys, n ∈ c.params := by
  cases c <;> simp [Circuit.keys, Circuit.params, stdParams, tuneCParams, tuneRLCParams]

theorem Circuit.params_simple (c : Circuit) : SimpleParams c.params := by
  cases c <;> first | exact stdParams_simple | exact tuneCParams_simple | exact tuneRLCParams_simple

variable {c : Circuit} {params : Dict Name ℝ}

theorem verification_ok {keys : List Name} {calls : List Instr} {P : PepProblem} (h : verification keys calls params = .ok P) :
    P.calls = calls ∧ ∀ n ∈ keys, params.get? n = some (P.value n) := by
  unfold verification at h
  split at h
  · rename_i hk
    split at h
    · split at h
      · cases h
        refine ⟨rfl, fun n hn => ?_⟩
        have := List.all_eq_true.1 hk n hn
        rw [Dict.has, Option.isSome_iff_exists] at this
        obtain ⟨v, hv⟩ := this
        simp [hv]
      · cases h
    · cases h
  · cases h

/-- **C73.** A circuit function that is given a dictionary without one of the keys it reads raises KeyError. -/
theorem C73_keys {n : Name} (hn : n ∈ c.keys) (h : params.get? n = none) : c.verify params = .error .key := by
  have : ¬ c.keys.all params.has = true := by
    intro hk
    have := List.all_eq_true.1 hk n hn
    simp [Dict.has, h] at this
  simp [Circuit.verify, verification, this]

/-- **C73.** If a circuit function other than `dual_decomposition` returns a problem without `params`, it returns a PEPit problem with a
dictionary that has the keys it reads: the same calls, with the numbers of the dictionary. -/
theorem C73_builds {C : CAS} {r : Regs} {h : Heap} (hr : runProblem C c.prog Heap.empty = .ok (r, h)) (hd : ¬ c.IsDual)
    (hk : ∀ n ∈ c.keys, params.get? n ≠ none) :
    ∃ P, c.verify params = .ok P ∧ P.calls = c.prog ∧ ∀ n ∈ c.keys, params.get? n = some (P.value n) := by
  have h1 : c.keys.all params.has = true := List.all_eq_true.2 fun n hn => by
    rw [Dict.has, Option.isSome_iff_ne_none]; exact hk n hn
  have h2 : (c.prog.all fun i => i.names.all fun n => n ∈ c.keys) = true := List.all_eq_true.2 fun i hi => List.all_eq_true.2 fun n hn => by
    simpa using Instr.names_of_clean (c.clean i hi) n hn
  have h3 := pkgRun_of_run (fun i hi e => hd ((c.facts.1 i hi).2 e)) hr
  have h4 : c.verify params = .ok ⟨c.prog, fun n => (params.get? n).getD 0⟩ := by
    have h5 : pkgRun c.prog ⟨[], []⟩ = .ok r.pep := h3
    rw [Circuit.verify, verification, if_pos h1, if_pos h2, h5]
  exact ⟨_, h4, verification_ok h4⟩

/-- **C73.** `dual_decomposition` with a dictionary raises an error, whatever the number of functions, the circuit and the dictionary:
it calls `subgrad_conjugate` of `ciropt` and adds the result to a point of PEPit. -/
theorem C73_dual (k : ℕ) (mu : ℚ) (L : Option ℚ) (Ind : ℚ) (params : Dict Name ℝ) : ∃ e, (Circuit.dualDecomposition k mu L Ind).verify params = .error e := by
  cases h : (Circuit.dualDecomposition k mu L Ind).verify params with
  | error e => exact ⟨e, rfl⟩
  | ok P =>
    unfold Circuit.verify verification at h
    split at h
    · split at h
      · split at h
        · rename_i r hr
          exact (dualDecomposition_pkg k mu L Ind r hr).elim
        · cases h
      · cases h
    · cases h

/-! ### What the worst case tells -/

/-- **C73.** The worst case PEPit computes is 0 if every real run satisfies the guarantee, and infinite if one does not: it is never a positive
number. -/
theorem C73_worst_case {P : PepProblem} (h : c.verify params = .ok P) (hok : ∀ d ∈ decls c.prog, d.Ok) :
    (P.worstCase = 0 ∧ Guaranteed c.prog P.value) ∨ (P.worstCase = ⊤ ∧ ¬ Guaranteed c.prog P.value) := by
  obtain ⟨h1, -⟩ := verification_ok h
  have h2 := worstCase_cases (P := P) (V := {n | n ∈ c.keys}) (by rw [h1]; exact c.clean) (by rw [h1]; exact hok) (by rw [h1]; exact c.facts.2)
  rw [h1] at h2
  by_cases hg : Guaranteed c.prog P.value
  · exact .inl ⟨h2.1 hg, hg⟩
  · exact .inr ⟨h2.2 hg, hg⟩

/-- **C73.** Verification at the parameter values of any feasible point of the nonlinear program of a circuit, except `dual_decomposition`:
PEPit's worst case is 0. -/
theorem C73_feasible {C : CAS} (hC : C.Lawful) (hd : ¬ c.IsDual) (hok : ∀ d ∈ decls c.prog, d.Ok) {env : Name → ℝ}
    (hf : IpoptFeasible C c.prog c.params env) (hp : ∀ n ∈ c.params, params.get? n = some (env n)) :
    ∃ P, c.verify params = .ok P ∧ P.worstCase = 0 := by
  have hs := c.params_simple
  have hg : Guaranteed c.prog env := guaranteed_of_feasible hC (fun i hi => (c.clean i hi).mono c.keys_params) (fun n hn => (hs.names n (List.mem_append_left _ hn)).1)
    (fun n hn => (hs.names n (List.mem_append_left _ hn)).2.1) hok hf
  obtain ⟨r, h, -, -, -, -, -, hr, -⟩ := hf
  obtain ⟨P, hP, h1, h2⟩ := C73_builds (params := params) hr hd fun n hn => by rw [hp n (c.keys_params n hn)]; simp
  refine ⟨P, hP, ?_⟩
  rcases C73_worst_case hP hok with h | h
  · exact h.1
  · refine (h.2 (guaranteed_congr c.clean (fun n hn => ?_) hg)).elim
    have := (hp n (c.keys_params n hn)).symm.trans (h2 n hn)
    simpa using this

/-- **C73.** The documented use: solve with `solver="ipopt"` by a solver that reports only feasible points as solved, and give the dictionary
to the circuit function again.  It returns a PEPit problem whose worst case is 0. -/
theorem C73_certified {C : CAS} (hC : C.Lawful) {X : External} {a : SolveArgs} {r : Regs} {h h' : Heap} {d : Dict Name (List ℝ)} (hd : ¬ c.IsDual)
    (hr : runProblem C c.prog Heap.empty = .ok (r, h)) (hok : ∀ d ∈ decls c.prog, d.Ok) (hb : ∀ b ∈ a.bounds, b.name ∈ scalarNames c.params)
    (hX : ∀ nlp sol, X.nlp nlp = .returned true sol → nlp.state.Sat sol)
    (hres : solve C X r c.params "ipopt" a h = .ok (.solved d, h')) :
    ∃ P, c.verify (asNumbers d) = .ok P ∧ P.worstCase = 0 := by
  obtain ⟨nlp, hn, hcase⟩ := C37_ipopt hC hr (fun i hi => (c.clean i hi).mono c.keys_params) c.params_simple hok hb hres
  rcases hcase with ⟨-, hc⟩ | ⟨sol, d', h1, h2, -, h4⟩
  · cases hc
  cases h2
  refine C73_feasible hC hd hok (env := nlp.state.value sol) ⟨r, h, _, _, nlp, h', sol, hr, hn, hX _ _ h1, rfl⟩ fun n hn => ?_
  exact asNumbers_get? (h4 n hn)

/-- **C73** after `solver="ipopt_qcqp"`. -/
theorem C73_certified_qcqp {C : CAS} (hC : C.Lawful) {X : External} {a : SolveArgs} {r : Regs} {h h' : Heap} {d : Dict Name (List ℝ)}
    (hd : ¬ c.IsDual) (hr : runProblem C c.prog Heap.empty = .ok (r, h)) (hok : ∀ d ∈ decls c.prog, d.Ok)
    (hb : ∀ b ∈ a.bounds, b.name ∈ c.params ∧ b.name ≠ "x")
    (hX : ∀ q sol, X.qcqp q = .returned true sol → q.Sat fun i => sol 0 i 0)
    (hres : solve C X r c.params "ipopt_qcqp" a h = .ok (.solved d, h')) :
    ∃ P, c.verify (asNumbers d) = .ok P ∧ P.worstCase = 0 := by
  have hs := c.params_simple
  have hcl : ∀ i ∈ c.prog, i.Clean {n | n ∈ c.params} := fun i hi => (c.clean i hi).mono c.keys_params
  obtain ⟨q, hn, hcase⟩ := C37_qcqp hC hs.nodup hres
  rcases hcase with ⟨-, hc⟩ | ⟨sol, d', h1, h2, -, h4⟩
  · cases hc
  cases h2
  have hget : ∀ n ∈ c.params, ∃ v, d.get? n = some [v] := fun n hn => by
    obtain ⟨i, -, hi⟩ := h4 n hn
    exact ⟨_, hi⟩
  obtain ⟨P, hP, h5, h6⟩ := C73_builds (params := asNumbers d) hr hd fun n hn => by
    obtain ⟨v, hv⟩ := hget n (c.keys_params n hn)
    rw [asNumbers_get? hv]; simp
  refine ⟨P, hP, ?_⟩
  rcases C73_worst_case hP hok with h | h
  · exact h.1
  · classical
    have hg : Guaranteed c.prog fun n => if hn : n ∈ c.params then (hget n hn).choose else 0 := by
      intro E _ _ fs hf rr hx hch v hv
      refine C37_qcqp_certifies hC hr hcl hs.nodup (fun n hn => (hs.names n (List.mem_append_left _ hn)).1) hok hb hX hres (fun n hn => ?_)
        fs hf rr hx hch v hv
      rw [dif_pos hn]
      exact (hget n hn).choose_spec
    have he : ∀ n ∈ {n | n ∈ c.keys}, (if hn : n ∈ c.params then (hget n hn).choose else 0) = P.value n := fun n hn => by
      have hn' := c.keys_params n hn
      have := (asNumbers_get? (hget n hn').choose_spec).symm.trans (h6 n hn)
      simpa [hn'] using this
    exact (h.2 (guaranteed_congr c.clean he hg)).elim

/-- **C73.** Where the inequalities of the performance problem are strictly feasible, PEPit's worst case is 0 exactly for the parameter values of the
feasible points of the nonlinear program (with its bounds `0 ≤ eta, rho, h` and reciprocal pairs): a finite answer of PEPit is never missed by
`solve`, and an infinite one never comes from a certificate. -/
theorem C73_exact {C : CAS} (hC : C.Lawful) {r : Regs} {h h' : Heap} {nlp : Nlp} {P : PepProblem} {env : Name → ℝ}
    (hr : runProblem C c.prog Heap.empty = .ok (r, h)) (hst : Standard c.prog = true) (hok : ∀ d ∈ decls c.prog, d.Ok ∧ d.Default = true)
    (hn : solveIpopt C r c.params [] [] h = .ok (nlp, h')) (hP : c.verify params = .ok P) (hp : ∀ n ∈ c.keys, params.get? n = some (env n))
    (hnn : ∀ n ∈ ["eta", "rho", "h"], 0 ≤ env n) (hinv : InvOk c.params env) :
    ∃ sm, problemMatrices C r h = .ok (sm, h') ∧ (StrictlyFeasible sm h.ptCounter h.exCounter env →
      (P.worstCase = 0 ↔ ∃ σ, nlp.state.Sat σ ∧ ∀ n ∈ scalarNames c.params, nlp.state.value σ n = env n)) := by
  obtain ⟨sm, hm, hiff⟩ := C68_ipopt hC hr (fun i hi => (c.clean i hi).mono c.keys_params) hst hok c.params_simple (by simp) hn
  refine ⟨sm, hm, fun hs => ?_⟩
  rw [hiff env hs]
  obtain ⟨-, h2⟩ := verification_ok hP
  have he : ∀ n ∈ {n | n ∈ c.keys}, P.value n = env n := fun n hn => by
    have := (h2 n hn).symm.trans (hp n hn)
    simpa using this
  constructor
  · intro h0
    rcases C73_worst_case hP fun d hd => (hok d hd).1 with h | h
    · exact ⟨guaranteed_congr c.clean he h.2, hinv, fun b hb => (List.not_mem_nil hb).elim, hnn⟩
    · rw [h.1] at h0; exact (EReal.top_ne_zero h0).elim
  · rintro ⟨hg, -⟩
    rcases C73_worst_case hP fun d hd => (hok d hd).1 with h | h
    · exact h.1
    · exact (h.2 (guaranteed_congr c.clean (fun n hn => (he n hn).symm) hg)).elim

/-- **C73.** The dictionary of the Gurobi solvers has, without `all`, only the keys eta, h, rho, alpha, beta: the circuit functions that read
`gamma` raise KeyError on it. -/
theorem C73_gurobi (hc : "gamma" ∈ c.keys) (st : CaState) (sol : ℕ → ℕ → ℕ → ℝ) :
    c.verify (asNumbers (dictParametersGp st false sol)) = .error .key := by
  refine C73_keys hc ?_
  have h1 : (dictParametersGp st false sol).get? "gamma" = none := by
    rw [dictParametersGp, C37_report]
    simp
  generalize dictParametersGp st false sol = d at h1
  induction d with
  | nil => rfl
  | cons kv d ih =>
    obtain ⟨k, l⟩ := kv
    rw [Dict.get?_cons] at h1
    rw [asNumbers, List.map_cons, Dict.get?_cons]
    by_cases hk : k = "gamma"
    · rw [if_pos hk] at h1; cases h1
    · rw [if_neg hk] at h1 ⊢
      exact ih h1

/-- **C73** for gradient descent, in closed form: for `gradient_flow_circuit` on `L`-smooth convex functions with `beta = 1` and `h ≥ 0`,
verification returns a problem whose worst case is 0 if `eta ≤ h` and `eta ≤ 2 h - L h² / C`, and infinite otherwise. -/
theorem C73_gradientDescent {L Cap : ℚ} (hL : 0 < L) (hCap : 0 < Cap) {alpha eta h : ℝ} (hh : 0 ≤ h) :
    ∃ P, (Circuit.gradientFlow 0 (some L) Cap).verify [("h", h), ("alpha", alpha), ("beta", 1), ("eta", eta)] = .ok P ∧
      (eta ≤ h ∧ eta ≤ 2 * h - L * h ^ 2 / Cap → P.worstCase = 0) ∧ (¬ (eta ≤ h ∧ eta ≤ 2 * h - L * h ^ 2 / Cap) → P.worstCase = ⊤) := by
  obtain ⟨r, g, -, -, hr, -⟩ := C69_gradientFlow refCAS_lawful 0 (some L) Cap (by simpa [defDecl, FnDecl.Ok] using hL) hCap.ne'
  obtain ⟨P, hP, h1, h2⟩ := C73_builds (c := .gradientFlow 0 (some L) Cap) (params := [("h", h), ("alpha", alpha), ("beta", 1), ("eta", eta)]) hr
    (by simp [Circuit.IsDual]) (by simp [Circuit.keys, Dict.get?])
  refine ⟨P, hP, ?_⟩
  simp [Circuit.keys, Dict.get?] at h2
  obtain ⟨e1, -, e3, e4⟩ := h2
  have h3 := gradientDescent_step (p := P.value) hL hCap e3.symm (by rw [← e1]; exact hh)
  rw [← guaranteed_gradientFlow, ← e1, ← e4] at h3
  rcases C73_worst_case hP (by simp only [Circuit.prog]; calls_simp [Build.gradientFlow]; simpa [decls, defDecl, FnDecl.Ok] using hL) with h4 | h4
  · exact ⟨fun _ => h4.1, fun h5 => (h5 (h3.1 h4.2)).elim⟩
  · exact ⟨fun h5 => (h4.2 (h3.2 h5)).elim, fun _ => h4.1⟩

/-! ### The hypotheses can be met -/

/-- `C73_feasible`, `C73_builds`, `C73_worst_case` apply: a certified point of `gradient_flow_circuit` -/
example : ∃ P, (Circuit.gradientFlow 0 (some 1) 1).verify [("alpha", 1), ("beta", 1 / 2), ("delta", 0), ("eta", 1 / 1000), ("gamma", 0), ("h", 1 / 2),
    ("rho", 1 / 1000)] = .ok P ∧ P.worstCase = 0 := by
  obtain ⟨p, hp, h1, h2, h3, h4, h5, h6, h7⟩ := C34_gradientFlow_feasible
  refine C73_feasible refCAS_lawful (by simp [Circuit.IsDual]) ?_ (env := p) hp ?_
  · simp only [Circuit.prog]; calls_simp [Build.gradientFlow]; simp [decls, defDecl, FnDecl.Ok]
  · simp [Circuit.params, stdParams, Dict.get?, h1, h2, h3, h4, h5, h6, h7]

/-- `C73_certified` applies: a solver that finds the best point of `gradient_flow_circuit` (C70), and verification of its dictionary -/
example : ∃ (X : External) (r : Regs) (h h' : Heap) (d : Dict Name (List ℝ)) (P : PepProblem),
    solve refCAS X r stdParams "ipopt" {} h = .ok (.solved d, h') ∧ (Circuit.gradientFlow 0 (some 1) 1).verify (asNumbers d) = .ok P ∧ P.worstCase = 0 := by
  obtain ⟨r, h, nlp, h', hr, hn, -, σ, hσ, -⟩ := C70_best refCAS_lawful (L := 1) (Cap := 1) (by norm_num) (by norm_num)
  have hX := onePoint_nlp (σ := σ) (x := fun _ => 0)
  have hx : (onePoint σ fun _ => 0).nlp nlp = .returned true _ := if_pos hσ
  obtain ⟨d, hres⟩ : ∃ d, solve refCAS (onePoint σ fun _ => 0) r stdParams "ipopt" {} h = .ok (.solved d, h') := by
    rw [solve, if_pos rfl, M.bind_of_ok hn, hx]
    exact ⟨_, rfl⟩
  obtain ⟨P, h1, h2⟩ := C73_certified (c := .gradientFlow 0 (some 1) 1) refCAS_lawful (by simp [Circuit.IsDual]) hr
    (by simp only [Circuit.prog]; calls_simp [Build.gradientFlow]; simp [decls, defDecl, FnDecl.Ok]) (by simp) hX hres
  exact ⟨_, r, h, h', d, P, hres, h1, h2⟩

/-- both cases of `C73_worst_case` occur: step size 1 is verified, step size 3 is refuted -/
example : (∃ P, (Circuit.gradientFlow 0 (some 1) 1).verify [("h", 1), ("alpha", 0), ("beta", 1), ("eta", 1)] = .ok P ∧ P.worstCase = 0) ∧
    ∃ P, (Circuit.gradientFlow 0 (some 1) 1).verify [("h", 3), ("alpha", 0), ("beta", 1), ("eta", 1)] = .ok P ∧ P.worstCase = ⊤ := by
  obtain ⟨P, h1, h2, -⟩ := C73_gradientDescent (L := 1) (Cap := 1) (alpha := 0) (eta := 1) (h := 1) (by norm_num) (by norm_num) (by norm_num)
  obtain ⟨Q, h3, -, h4⟩ := C73_gradientDescent (L := 1) (Cap := 1) (alpha := 0) (eta := 1) (h := 3) (by norm_num) (by norm_num) (by norm_num)
  exact ⟨⟨P, h1, h2 (by norm_num)⟩, Q, h3, h4 (by norm_num)⟩

/-- `dual_decomposition` works without `params` and fails with the certified dictionary -/
example : (∃ r h, runProblem refCAS (Circuit.dualDecomposition 1 (1 / 2) (some 1) 1).prog Heap.empty = .ok (r, h)) ∧
    ∃ e, (Circuit.dualDecomposition 1 (1 / 2) (some 1) 1).verify [("alpha", 0), ("beta", 1), ("delta", 0), ("eta", 1 / 1000), ("gamma", 0), ("h", 1 / 4),
      ("rho", 1 / 1000)] = .error e := by
  obtain ⟨p, ⟨r, h, -, -, -, -, -, hr, -⟩, -⟩ := C34_dualDecomposition_feasible
  exact ⟨⟨r, h, hr⟩, C73_dual _ _ _ _ _⟩

example : "gamma" ∈ (Circuit.douglasRachford (1 / 2) (some 1) 1 1).keys := by simp [Circuit.keys]

/-- `C73_exact` applies to `gradient_flow_circuit` -/
example : Standard (Circuit.gradientFlow 0 (some 1) 1).prog = true ∧ ∀ d ∈ decls (Circuit.gradientFlow 0 (some 1) 1).prog, d.Default = true :=
  standard_gradientFlow 0 (some 1) 1

end Verif
