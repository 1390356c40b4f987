import Verif.Proofs.Bisect
import Verif.Props.Sdp

/-!
# C31: the halving search on `eta`
-/

namespace Verif
open Heap

/-- value of `eta` the search starts from: the given one, else 10 -/
def startEta (vals : Dict Name ℚ) : ℚ := match vals.get? "eta" with
  | some e => e
  | none => 10

/-- the dictionary `p` is `vals` with `eta` replaced by `e` -/
def WithEta (vals : Dict Name ℚ) (e : ℚ) (p : Dict Name ℚ) : Prop :=
  p.get? "eta" = some e ∧ ∀ n, n ≠ "eta" → p.get? n = vals.get? n

theorem etaAt_with (vals : Dict Name ℚ) (e0 : ℚ) (t : ℕ) : WithEta vals (e0 / 2 ^ t) (etaAt vals e0 t) := by
  refine ⟨by rw [etaAt, Dict.get?_set, if_pos rfl], fun n hn => by rw [etaAt, Dict.get?_set, if_neg hn]⟩

/-- **C31.** For every solver (that may raise, and may answer differently each time), start values and limit: in iteration `s` the solver
is called with some dictionary `ps s` in which only `eta` differs from the given values, with `eta = eta0 / 2^s`.  Either some iteration
`t` is reported optimal, no earlier one is, and `(ps t, eta0 / 2^t)` is returned; or none of the `n` iterations is, and `eta0 / 2^n` is
returned, with the dictionary of the last iteration. -/
theorem C31_search (solve : ℕ → Dict Name ℚ → SolveOutcome) (n : ℕ) (vals : Dict Name ℚ) :
    ∃ ps : ℕ → Dict Name ℚ, (∀ s, WithEta vals (startEta vals / 2 ^ s) (ps s)) ∧
      ((∃ t < n, bisectEta solve n vals = (ps t, startEta vals / 2 ^ t) ∧ solve t (ps t) = .status "optimal" ∧
          ∀ s < t, solve s (ps s) ≠ .status "optimal") ∨
       ((∀ s < n, solve s (ps s) ≠ .status "optimal") ∧
          bisectEta solve n vals = (if n = 0 then vals else ps (n - 1), startEta vals / 2 ^ n))) := by
  refine ⟨etaAt vals (startEta vals), etaAt_with vals _, ?_⟩
  have e : bisectEta solve n vals = bisectLoop solve n 0 vals (startEta vals / 2 ^ 0) := by
    rw [bisectEta, pow_zero, div_one]; rfl
  rw [e]
  rcases bisectLoop_spec solve vals (startEta vals) n 0 vals (fun _ => rfl) with ⟨s, -, h2, h3, h4, h5⟩ | ⟨h1, h2⟩
  · exact Or.inl ⟨s, by omega, h3, h4, fun u hu => h5 u (Nat.zero_le _) hu⟩
  · refine Or.inr ⟨fun s hs => h1 s (Nat.zero_le _) (by omega), ?_⟩
    rw [h2, Nat.zero_add]

/-- **C31**, the corner: when no iteration succeeds, the `eta` returned was never given to the solver, and the dictionary returned holds
twice this value. -/
theorem C31_failure (solve : ℕ → Dict Name ℚ → SolveOutcome) {n : ℕ} (hn : 0 < n) (vals : Dict Name ℚ) (h0 : startEta vals ≠ 0)
    (hfail : ∀ s p, solve s p ≠ .status "optimal") :
    (∀ s < n, startEta vals / 2 ^ s ≠ (bisectEta solve n vals).2) ∧
      (bisectEta solve n vals).1.get? "eta" = some (2 * (bisectEta solve n vals).2) := by
  obtain ⟨ps, hps, h⟩ := C31_search solve n vals
  rcases h with ⟨t, -, -, h, -⟩ | ⟨-, h⟩
  · exact absurd h (hfail _ _)
  · rw [h]
    simp only
    rw [if_neg (by omega)]
    refine ⟨fun s hs heq => ?_, ?_⟩
    · have h1 : (2 : ℚ) ^ s = 2 ^ n := by
        rw [div_eq_div_iff (by positivity) (by positivity)] at heq
        exact (mul_left_cancel₀ h0 heq).symm
      have := Nat.pow_right_injective (le_refl 2) (by exact_mod_cast h1 : (2 : ℕ) ^ s = 2 ^ n)
      omega
    · rw [(hps (n - 1)).1]
      obtain ⟨m, rfl⟩ : ∃ m, n = m + 1 := ⟨n - 1, by omega⟩
      rw [Nat.add_sub_cancel]
      congr 1
      field_simp
      ring

variable {C : CAS} {h h' : Heap} {r : Regs} {prog : List Instr} {params : List Name} {vals : Dict Name ℚ}

theorem solveBisection_inv {n : ℕ} {run : ℕ → Sdp → SolveOutcome} {res : Dict Name ℚ × ℚ}
    (hs : solveBisection C r params vals n run h = .ok (res, h')) :
    ∃ sm, problemMatrices C r h = .ok (sm, h') ∧ res = bisectEta (fun t ps =>
      match solveBisection.fixedSdpWithInputs C params sm h.ptCounter h.exCounter ps with
      | .ok s => run t s
      | .error _ => .raised) n vals := by
  rw [solveBisection] at hs
  obtain ⟨h0, h1, h2, hs⟩ := M.bind_ok_iff.1 hs
  injection h2 with h2
  simp only [Prod.mk.injEq] at h2
  obtain ⟨rfl, rfl⟩ := h2
  obtain ⟨u, h2, h3, hs⟩ := M.bind_ok_iff.1 hs
  by_cases hperm : vals.keys.Perm params
  swap
  · rw [M.assert, decide_eq_false hperm] at h3
    cases h3
  rw [M.assert, decide_eq_true hperm] at h3
  injection h3 with h3
  simp only [Prod.mk.injEq] at h3
  obtain ⟨-, rfl⟩ := h3
  obtain ⟨sm, h2, h3, hs⟩ := M.bind_ok_iff.1 hs
  refine ⟨sm, ?_⟩
  cases hx : spCoeffMatrix C sm.spExp params h.ptCounter h.exCounter with
  | ok x =>
    rw [hx] at hs
    injection hs with hs
    simp only [Prod.mk.injEq] at hs
    obtain ⟨rfl, rfl⟩ := hs
    exact ⟨h3, rfl⟩
  | error e =>
    rw [hx] at hs
    cases hs

/-- **C31**, what an early stop means: if the solver reports "optimal" only for feasible programs, and the returned dictionary has the
returned `eta` (so by `C31_failure` the search did not run out of iterations), then every execution of the program on functions of the
declared classes with the returned parameter values, that satisfies the extra constraints, has metric ≤ 0. -/
theorem C31_certified (hC : C.Lawful) (hr : runProblem C prog Heap.empty = .ok (r, h)) (hclean : ∀ i ∈ prog, i.Clean {n | n ∈ params})
    (hp : params.Nodup) (hok : ∀ d ∈ decls prog, d.Ok) {n : ℕ} (hn : 0 < n) {run : ℕ → Sdp → SolveOutcome}
    (hrun : ∀ t s, run t s = .status "optimal" → ∃ σ, s.Sat σ) {p : Dict Name ℚ} {eta : ℚ}
    (hb : solveBisection C r params vals n run h = .ok ((p, eta), h')) (h0 : startEta vals ≠ 0) (hstop : p.get? "eta" = some eta) :
    ∀ {E : Type} [NormedAddCommGroup E] [InnerProductSpace ℝ E] (fs : ℕ → CFun E), Instance prog fs → ∀ (rr : RRegs E),
      RealExec fs (dictEnv p) prog rr → rr.ConsHold → ∀ v, rr.metric = some v → v ≤ 0 := by
  obtain ⟨sm, hm, hres⟩ := solveBisection_inv hb
  obtain ⟨ps, hps, hcase⟩ := C31_search (fun t ps =>
      match solveBisection.fixedSdpWithInputs C params sm h.ptCounter h.exCounter ps with
      | .ok s => run t s
      | .error _ => .raised) n vals
  rw [← hres] at hcase
  have hs := solvable_of_ok hC hr hok hm
  have t := translate_of hC hr hs hm
  obtain ⟨ents, obj, pr⟩ := t.prepared
  rcases hcase with ⟨k, -, hk, hopt, -⟩ | ⟨-, hk⟩
  · simp only [Prod.mk.injEq] at hk
    obtain ⟨rfl, rfl⟩ := hk
    cases hf : solveBisection.fixedSdpWithInputs C params sm h.ptCounter h.exCounter (ps k) with
    | error e => simp [hf] at hopt
    | ok S =>
      simp only [hf] at hopt
      obtain ⟨σ, hσ⟩ := hrun _ _ hopt
      rw [solveBisection.fixedSdpWithInputs] at hf
      obtain ⟨q, hq, hf⟩ := Except.bind_ok_iff.1 hf
      obtain ⟨hZ, d⟩ := (fixedSdpWith_iff hC hp hq pr hf σ).1 hσ
      intro E _ _ fs hfs rr ex hcons v hv
      exact weak_duality hC hr t (qcqp_clean hC hr hclean hm) hok d hZ hfs ex hcons hv
  · exfalso
    rw [if_neg (by omega)] at hk
    simp only [Prod.mk.injEq] at hk
    obtain ⟨rfl, rfl⟩ := hk
    rw [(hps (n - 1)).1] at hstop
    injection hstop with heq
    rw [div_eq_div_iff (by positivity) (by positivity)] at heq
    have h1 := mul_left_cancel₀ h0 heq
    have := Nat.pow_right_injective (le_refl 2) (by exact_mod_cast h1 : (2 : ℕ) ^ n = 2 ^ (n - 1))
    omega

/-! ### Non-vacuity -/

theorem ssat_of_holdsQ {s : Sdp} {σ : ℕ → ℕ → ℕ → ℚ} (h : s.cons.all (Constr.holdsQ σ) = true)
    (hp : ∀ p ∈ s.psd, IsPSD p.2 fun i j => ((σ p.1 i j : ℚ) : ℝ)) : s.Sat fun v a b => ((σ v a b : ℚ) : ℝ) := by
  refine ⟨hp, fun c hc => ?_⟩
  have := List.all_eq_true.1 h c hc
  cases c with
  | eq a b =>
    simp only [Constr.holdsQ, decide_eq_true_eq] at this
    simp only [Constr.Holds, CExp.evalQ_eval, this]
  | ge a b =>
    simp only [Constr.holdsQ, decide_eq_true_eq] at this
    simp only [Constr.Holds, CExp.evalQ_eval]
    exact_mod_cast this

/-- run a program and build the semidefinite program at fixed parameters -/
def buildFixed (C : CAS) (prog : List Instr) (params : List Name) (vals : Dict Name ℚ) : Except Err (Sdp × Regs × Heap × Heap) :=
  match runProblem C prog Heap.empty with
  | .ok (r, h) => match solveFixedSdp C r params vals h with
    | .ok (n, h') => .ok (n, r, h, h')
    | .error e => .error e
  | .error e => .error e

theorem buildFixed_ok {x : Sdp × Regs × Heap × Heap} (h : buildFixed C prog params vals = .ok x) :
    runProblem C prog Heap.empty = .ok (x.2.1, x.2.2.1) ∧ solveFixedSdp C x.2.1 params vals x.2.2.1 = .ok (x.1, x.2.2.2) := by
  rw [buildFixed] at h
  split at h
  · split at h
    · injection h with h
      subst h
      constructor <;> assumption
    · cases h
  · cases h

theorem fixed_of_check {σ : ℕ → ℕ → ℕ → ℚ} {g : ℕ}
    (h : (match buildFixed C prog params vals with
      | .ok y => y.1.cons.all (Constr.holdsQ σ) && solvableB y.2.1 y.2.2.1 && decide (y.1.psd = [(1, g)])
      | .error _ => false) = true) (hZ : IsPSD g fun i j => ((σ 1 i j : ℚ) : ℝ)) :
    ∃ r h S h', runProblem C prog Heap.empty = .ok (r, h) ∧ solveFixedSdp C r params vals h = .ok (S, h') ∧ Solvable r h ∧
      S.Sat fun v a b => ((σ v a b : ℚ) : ℝ) := by
  split at h
  · rename_i y hy
    obtain ⟨h1, h2⟩ := buildFixed_ok hy
    rw [Bool.and_eq_true, Bool.and_eq_true] at h
    refine ⟨_, _, _, _, h1, h2, solvable_of_check h.1.2, ssat_of_holdsQ h.1.1 ?_⟩
    have := of_decide_eq_true h.2
    rw [this]
    intro p hp
    rw [List.mem_singleton] at hp
    subst hp
    exact hZ
  · cases h

/-- the descent lemma at `eta = 3/16, h = 1/2`: one multiplier 1, `Z = diag (0, 1/16, 1/4)` -/
def descentFixed : ℕ → ℕ → ℕ → ℚ
  | 0, 0, 0 => 1
  | 1, 1, 1 => 1 / 16
  | 1, 2, 2 => 1 / 4
  | _, _, _ => 0

def descentVals : Dict Name ℚ := [("h", 1 / 2), ("eta", 3 / 16)]

theorem descentFixed_psd : IsPSD 3 fun i j => ((descentFixed 1 i j : ℚ) : ℝ) := by
  refine ⟨fun i hi j hj => ?_, fun v => ?_⟩
  · interval_cases i <;> interval_cases j <;> rfl
  · simp only [Finset.sum_range_succ, Finset.sum_range_zero, descentFixed]
    push_cast
    nlinarith [sq_nonneg (v 1), sq_nonneg (v 2)]

theorem descent_fixed : ∃ r h S h', runProblem refCAS descentProg Heap.empty = .ok (r, h) ∧
    solveFixedSdp refCAS r ["eta", "h"] descentVals h = .ok (S, h') ∧ Solvable r h ∧
    S.Sat fun v a b => ((descentFixed v a b : ℚ) : ℝ) := fixed_of_check (g := 3) (by decide +kernel) descentFixed_psd

theorem descent_clean : ∀ i ∈ descentProg, i.Clean {n | n ∈ ["eta", "h"]} := by
  intro i hi
  simp only [descentProg, List.mem_cons, List.not_mem_nil, or_false] at hi
  rcases hi with rfl | rfl | rfl | rfl | rfl | rfl | rfl <;> simp [Instr.Clean, PE.Clean, EE.Clean, Sym.vars]

theorem descent_ok : ∀ d ∈ decls descentProg, d.Ok := by
  intro d hd
  simp only [descentProg, decls, List.mem_cons, List.not_mem_nil, or_false] at hd
  subst hd
  norm_num [FnDecl.Ok]

/-- all hypotheses of `C29_iff`, `C29_exists` and `C29_sound` are met by the descent lemma -/
example : ∀ {E : Type} [NormedAddCommGroup E] [InnerProductSpace ℝ E] (fs : ℕ → CFun E), Instance descentProg fs → ∀ (rr : RRegs E),
    RealExec fs (dictEnv descentVals) descentProg rr → rr.ConsHold → ∀ v, rr.metric = some v → v ≤ 0 := by
  obtain ⟨r, h, S, h', h1, h2, h3, h4⟩ := descent_fixed
  exact C29_sound refCAS_lawful h1 descent_clean (by decide) descent_ok h2 h4

/-- the solver that reports "optimal" exactly for feasible programs -/
noncomputable def exactSolver : ℕ → Sdp → SolveOutcome := fun _ s => open Classical in if ∃ σ, s.Sat σ then .status "optimal" else .status "infeasible"

theorem bisect_first {solve : ℕ → Dict Name ℚ → SolveOutcome} {n : ℕ} {vals : Dict Name ℚ} {e : ℚ} (he : vals.get? "eta" = some e)
    (hset : vals.set "eta" e = vals) (hopt : solve 0 vals = .status "optimal") : bisectEta solve (n + 1) vals = (vals, e) := by
  rw [bisectEta, he]
  simp only [bisectLoop]
  rw [hset, hopt]
  simp

/-- all hypotheses of `C31_certified` are met: with the exact solver the search on the descent lemma stops at once -/
example : ∃ r h p h', runProblem refCAS descentProg Heap.empty = .ok (r, h) ∧ Solvable r h ∧
    (∀ t s, exactSolver t s = .status "optimal" → ∃ σ, s.Sat σ) ∧
    solveBisection refCAS r ["eta", "h"] descentVals 30 exactSolver h = .ok ((p, 3 / 16), h') ∧ startEta descentVals ≠ 0 ∧
    p.get? "eta" = some (3 / 16) := by
  obtain ⟨r, h, S, h', h1, h2, h3, h4⟩ := descent_fixed
  obtain ⟨sm, q, hperm, hm, hq, hS⟩ := solveFixedSdp_inv h2
  obtain ⟨cs, co, fr⟩ := qData_inv hq
  have hsol : ∀ t s, exactSolver t s = .status "optimal" ↔ ∃ σ, s.Sat σ := by
    intro t s; unfold exactSolver; split <;> simp_all
  have hset : descentVals.set "eta" (3 / 16) = descentVals := by decide +kernel
  have hf : solveBisection.fixedSdpWithInputs refCAS ["eta", "h"] sm h.ptCounter h.exCounter descentVals = .ok S := by
    rw [solveBisection.fixedSdpWithInputs, hq]; exact hS
  refine ⟨r, h, descentVals, h', h1, h3, fun t s => (hsol t s).1, ?_, by decide +kernel, by decide +kernel⟩
  rw [solveBisection, M.bind_of_ok (show M.get h = .ok (h, h) from rfl),
    M.bind_of_ok (show M.assert (decide (descentVals.keys.Perm ["eta", "h"])) h = .ok ((), h) by rw [decide_eq_true hperm]; rfl), M.bind_of_ok hm, fr.coeff]
  show Except.ok (bisectEta _ 30 descentVals, h') = _
  rw [bisect_first (e := 3 / 16) (by decide +kernel) hset (by rw [hf]; exact (hsol 0 S).2 ⟨_, h4⟩)]

/-- a search that raises at first, then reports infeasible, then succeeds -/
example : bisectEta (fun t _ => if t = 0 then .raised else if t = 1 then .status "infeasible" else .status "optimal") 30 descentVals =
    ([("h", 1 / 2), ("eta", 3 / 64)], 3 / 64) := by decide +kernel

/-- a search that fails -/
example : bisectEta (fun _ _ => .status "infeasible") 3 descentVals = ([("h", 1 / 2), ("eta", 3 / 64)], 3 / 128) := by decide +kernel

end Verif
