import Verif.Proofs.Sdp
import Verif.Props.Qcqp

/-!
# C29: the semidefinite program at fixed parameters; C31: the halving search on `eta`
-/

namespace Verif
open Heap

variable {C : CAS} {h h' : Heap} {r : Regs} {prog : List Instr} {params : List Name} {vals : Dict Name ℚ} {S : Sdp}

theorem solveFixedSdp_inv (hs : solveFixedSdp C r params vals h = .ok (S, h')) :
    ∃ sm q, vals.keys.Perm params ∧ problemMatrices C r h = .ok (sm, h') ∧ qData C sm h.ptCounter h.exCounter params = .ok q ∧
      fixedSdpWith q h.ptCounter h.exCounter vals = .ok S := by
  rw [solveFixedSdp] at hs
  obtain ⟨h0, h1, h2, hs⟩ := M.bind_ok_iff.1 hs
  injection h2 with h2
  simp only [Prod.mk.injEq] at h2
  obtain ⟨rfl, rfl⟩ := h2
  obtain ⟨u, h2, h3, hs⟩ := M.bind_ok_iff.1 hs
  by_cases hperm : vals.keys.Perm params
  swap
  · rw [M.assert, decide_eq_false hperm] at h3
    cases h3
  rw [M.assert, decide_eq_true hperm] at h3
  injection h3 with h3
  simp only [Prod.mk.injEq] at h3
  obtain ⟨-, rfl⟩ := h3
  obtain ⟨sm, h2, h3, hs⟩ := M.bind_ok_iff.1 hs
  cases hx : fixedSdp C sm h.ptCounter h.exCounter params vals with
  | ok x =>
    have hs' : (match fixedSdp C sm h.ptCounter h.exCounter params vals with
      | .ok x => pure x | .error e => M.throw e : M Sdp) h2 = .ok (S, h') := hs
    rw [hx] at hs'
    injection hs' with hs'
    simp only [Prod.mk.injEq] at hs'
    obtain ⟨rfl, rfl⟩ := hs'
    rw [fixedSdp] at hx
    obtain ⟨q, h4, hx⟩ := Except.bind_ok_iff.1 hx
    exact ⟨sm, q, hperm, h3, h4, hx⟩
  | error e =>
    have hs' : (match fixedSdp C sm h.ptCounter h.exCounter params vals with
      | .ok x => pure x | .error e => M.throw e : M Sdp) h2 = .ok (S, h') := hs
    rw [hx] at hs'
    cases hs'

/-- **C29.** Let a program, and `solve_fix_discr_sdp` with the dictionary `vals` of parameter values, run without error.  A point of the
semidefinite program is feasible iff `Z` is positive semidefinite and, with the multipliers (in the order of the constraints), solves the
dual system at the given parameter values. -/
theorem C29_iff (hC : C.Lawful) (hr : runProblem C prog Heap.empty = .ok (r, h)) (hp : params.Nodup) (hs : Solvable r h)
    (hn : solveFixedSdp C r params vals h = .ok (S, h')) :
    ∃ sm, problemMatrices C r h = .ok (sm, h') ∧ ∀ σ, S.Sat σ ↔ IsPSD h.ptCounter (σ 1) ∧
      DualFeasible sm h.ptCounter h.exCounter (dictEnv vals) (fun key => σ 0 ((Dict.keys sm.spExp).idxOf key) 0) (σ 1) := by
  obtain ⟨sm, q, -, hm, hq, hS⟩ := solveFixedSdp_inv hn
  obtain ⟨ents, obj, pr⟩ := (translate_of hC hr hs hm).prepared
  exact ⟨sm, hm, fixedSdpWith_iff hC hp hq pr hS⟩

/-- **C29**, soundness: if the semidefinite program is feasible, then every execution of the program on functions of the declared classes,
at these parameter values, that satisfies the extra constraints has metric ≤ 0. -/
theorem C29_sound (hC : C.Lawful) (hr : runProblem C prog Heap.empty = .ok (r, h)) (hclean : ∀ i ∈ prog, i.Clean {n | n ∈ params})
    (hp : params.Nodup) (hok : ∀ d ∈ decls prog, d.Ok)
    (hn : solveFixedSdp C r params vals h = .ok (S, h')) {σ : ℕ → ℕ → ℕ → ℝ} (hσ : S.Sat σ) :
    ∀ {E : Type} [NormedAddCommGroup E] [InnerProductSpace ℝ E] (fs : ℕ → CFun E), Instance prog fs → ∀ (rr : RRegs E),
      RealExec fs (dictEnv vals) prog rr → rr.ConsHold → ∀ v, rr.metric = some v → v ≤ 0 := by
  obtain ⟨sm0, q0, -, hm0, -, -⟩ := solveFixedSdp_inv hn
  have hs := solvable_of_ok hC hr hok hm0
  obtain ⟨sm, hm, hiff⟩ := C29_iff hC hr hp hs hn
  obtain ⟨hZ, d⟩ := (hiff σ).1 hσ
  intro E _ _ fs hf rr ex hcons v hv
  exact weak_duality hC hr (translate_of hC hr hs hm) (qcqp_clean hC hr hclean hm) hok d hZ hf ex hcons hv

theorem DualFeasible.congr {sm : SymMats} {dimG dimF : ℕ} {env env' : Name → ℝ} {mult : SpKey → ℝ} {Z Z' : ℕ → ℕ → ℝ}
    (he : ∀ km ∈ sm.spExp, ∀ n, km.2.Occurs n → env n = env' n) (hZ : ∀ i < dimG, ∀ j < dimG, Z i j = Z' i j)
    (d : DualFeasible sm dimG dimF env mult Z) : DualFeasible sm dimG dimF env' mult Z' := by
  have hF : ∀ km ∈ sm.spExp, ∀ k, (km.2.F k).eval env = (km.2.F k).eval env' := fun km hkm k =>
    Sym.eval_congr _ fun n hn => he km hkm n (Or.inl ⟨k, hn⟩)
  have hG : ∀ km ∈ sm.spExp, ∀ i j, (km.2.G i j).eval env = (km.2.G i j).eval env' := fun km hkm i j =>
    Sym.eval_congr _ fun n hn => he km hkm n (Or.inr ⟨i, j, hn⟩)
  refine ⟨d.nonneg, fun k hk => ?_, fun i hi j hj => ?_⟩
  · have e1 : sm.dualF env' mult k = sm.dualF env mult k := by
      rw [SymMats.dualF, SymMats.dualF]
      congr 1
      exact List.map_congr_left fun en hen => by rw [hF en (List.mem_filter.1 hen).1]
    have e2 : sm.objF env' k = sm.objF env k := by
      rw [SymMats.objF, SymMats.objF]
      cases ho : Dict.get? sm.spExp .obj with
      | none => rfl
      | some m => exact (hF (.obj, m) (Dict.mem_of_get? ho) k).symm
    rw [e1, e2]
    exact d.F k hk
  · have e1 : sm.dualG env' mult i j = sm.dualG env mult i j := by
      rw [SymMats.dualG, SymMats.dualG]
      congr 1
      exact List.map_congr_left fun en hen => by rw [hG en (List.mem_filter.1 hen).1]
    have e2 : sm.objG env' i j = sm.objG env i j := by
      rw [SymMats.objG, SymMats.objG]
      cases ho : Dict.get? sm.spExp .obj with
      | none => rfl
      | some m => exact (hG (.obj, m) (Dict.mem_of_get? ho) i j).symm
    rw [e1, e2, ← hZ i hi j hj]
    exact d.G i hi j hj

/-- **C29**, equivalence: the semidefinite program is feasible iff at these parameter values the dual system has a solution whose
semidefinite part is `P Pᵀ` for a lower triangular `P` with non-negative diagonal, as in the direct and QCQP formulations. -/
theorem C29_exists (hC : C.Lawful) (hr : runProblem C prog Heap.empty = .ok (r, h)) (hp : params.Nodup) (hs : Solvable r h)
    (hn : solveFixedSdp C r params vals h = .ok (S, h')) :
    ∃ sm, problemMatrices C r h = .ok (sm, h') ∧ ((∃ σ, S.Sat σ) ↔ ∃ (mult : SpKey → ℝ) (P : ℕ → ℕ → ℝ), (∀ i k, i < k → P i k = 0) ∧ (∀ i, 0 ≤ P i i) ∧
      DualFeasible sm h.ptCounter h.exCounter (dictEnv vals) mult fun i j => ∑ k ∈ Finset.range h.ptCounter, P i k * P j k) := by
  obtain ⟨sm, hm, hiff⟩ := C29_iff hC hr hp hs hn
  refine ⟨sm, hm, ?_, ?_⟩
  · rintro ⟨σ, hσ⟩
    obtain ⟨hZ, d⟩ := (hiff σ).1 hσ
    obtain ⟨P, h1, h2, h3⟩ := hZ.cholesky
    exact ⟨_, P, h1, h2, d.congr (fun _ _ _ _ => rfl) h3⟩
  · rintro ⟨mult, P, -, -, d⟩
    refine ⟨fun v i j => if v = 0 then (match (Dict.keys sm.spExp)[i]? with | some k => mult k | none => 0)
      else ∑ k ∈ Finset.range h.ptCounter, P i k * P j k, (hiff _).2 ⟨by simpa using IsPSD.ppt _ P, ?_⟩⟩
    have hmult : ∀ key ∈ Dict.keys sm.spExp, (match (Dict.keys sm.spExp)[(Dict.keys sm.spExp).idxOf key]? with | some k => mult k | none => 0) = mult key := by
      intro key hk
      rw [List.getElem?_eq_getElem (List.idxOf_lt_length_of_mem hk), List.getElem_idxOf]
    refine ⟨fun a b c hmem => ?_, fun k hk => ?_, fun i hi j hj => ?_⟩
    · simp only [if_true]
      rw [hmult _ hmem]
      exact d.nonneg a b c hmem
    · refine Eq.trans ?_ (d.F k hk)
      rw [SymMats.dualF, SymMats.dualF]
      congr 2
      refine List.map_congr_left fun en hen => ?_
      simp only [if_true]
      rw [hmult _ (List.mem_map.2 ⟨en, (List.mem_filter.1 hen).1, rfl⟩)]
    · simp only [one_ne_zero, if_false]
      rw [← d.G i hi j hj, SymMats.dualG, SymMats.dualG]
      congr 2
      refine List.map_congr_left fun en hen => ?_
      simp only [if_true]
      rw [hmult _ (List.mem_map.2 ⟨en, (List.mem_filter.1 hen).1, rfl⟩)]

/-- **C29**, agreement with C27: at parameter values `vals` (satisfying the reciprocal conditions, the bounds and the four lower bounds)
the semidefinite program is feasible iff the QCQP has a feasible vector whose monomials have the values given by `vals`. -/
theorem C29_qcqp (hC : C.Lawful) (hr : runProblem C prog Heap.empty = .ok (r, h)) (hclean : ∀ i ∈ prog, i.Clean {n | n ∈ params})
    (hp : params.Nodup) (hpl : ∀ n ∈ params, Plain n) (hs : Solvable r h) {h'' : Heap}
    (hn : solveFixedSdp C r params vals h = .ok (S, h')) {bounds : List Bound} {extra : ℕ} {q : Qcqp}
    (hq : solveQcqp C r params bounds extra h = .ok (q, h'')) (hb : ∀ b ∈ bounds, VName.str b.name ∈ q.tab.names ∧ b.name ≠ "x")
    (hi : InvOk params (dictEnv vals)) (hbo : BoundsOk bounds (dictEnv vals))
    (hlow : ∀ n ∈ ["eta", "h", "rho", "gamma"], 1 / 10000000 ≤ dictEnv vals n) :
    (∃ σ, S.Sat σ) ↔ ∃ x, q.Sat x ∧ ∀ i n, q.tab.names[i]? = some n → x i = n.val (dictEnv vals) := by
  obtain ⟨sm, hm, he⟩ := C29_exists hC hr hp hs hn
  obtain ⟨sm', hm', hiff, -⟩ := C27_iff hC hr hclean hp hpl hs hq hb
  rw [hm] at hm'
  injection hm' with hm'
  simp only [Prod.mk.injEq] at hm'
  obtain ⟨rfl, rfl⟩ := hm'
  rw [he]
  constructor
  · rintro ⟨mult, P, h1, h2, d⟩
    set N := q.tab.names.length with hN
    set m := sm.nI + sm.nE with hmm
    have t := translate_of hC hr hs hm
    have hkl : (Dict.keys sm.spExp).length = m + 1 := by
      obtain ⟨ents, obj, pr⟩ := t.prepared
      rw [pr.sp, Dict.keys_append, List.length_append, Dict.keys, List.length_map, pr.len]; rfl
    -- rows of the triangle are recovered from the position
    let rowOf : ℕ → ℕ := fun k => Nat.findGreatest (fun i => startIdx i ≤ k) k
    have hrow : ∀ i k, k ≤ i → rowOf (startIdx i + k) = i := by
      intro i k hk
      have hmono : ∀ a b, a < b → startIdx a + a + 1 ≤ startIdx b := fun a b hab => startIdx_lt hab
      have hge : i ≤ startIdx i + k := by
        rcases Nat.eq_zero_or_pos i with h0 | h0
        · omega
        · have := hmono (i - 1) i (by omega); omega
      apply le_antisymm
      · by_contra hlt
        push Not at hlt
        have hs1 : startIdx (rowOf (startIdx i + k)) ≤ startIdx i + k :=
          Nat.findGreatest_spec (P := fun j => startIdx j ≤ startIdx i + k) hge (by omega)
        have := hmono _ _ hlt
        omega
      · exact Nat.le_findGreatest hge (by omega)
    let x : ℕ → ℝ := fun i =>
      if i < N then (match q.tab.names[i]? with | some n => n.val (dictEnv vals) | none => 0)
      else if i < N + m then (match (Dict.keys sm.spExp)[i - N]? with | some k => mult k | none => 0)
      else P (rowOf (i - N - m)) (i - N - m - startIdx (rowOf (i - N - m)))
    have hx : ∀ i n, q.tab.names[i]? = some n → x i = n.val (dictEnv vals) := by
      intro i n hin
      have := (List.getElem?_eq_some_iff.1 hin).1
      simp only [x]
      rw [if_pos (by omega), hin]
    refine ⟨x, (hiff x).2 ⟨dictEnv vals, mult, P, ⟨hx, ?_, ?_, h1, fun i _ => h2 i, d⟩, hi, hbo, hlow⟩, hx⟩
    · intro k key hk hne
      have hkm : k < m := by
        have h3 := (List.getElem?_eq_some_iff.1 hk).1
        rcases Nat.lt_or_ge k m with h4 | h4
        · exact h4
        · exfalso
          have h5 : k = m := by omega
          subst h5
          obtain ⟨ents, obj, pr⟩ := t.prepared
          rw [pr.sp, Dict.keys_append, List.getElem?_append_right (by simp [Dict.keys, pr.len, hmm])] at hk
          simp [Dict.keys, pr.len, hmm] at hk
          exact hne hk.symm
      simp only [x]
      rw [if_neg (by omega), if_pos (by omega), ← hN, Nat.add_sub_cancel_left, hk]
    · intro i _ k hk
      have := hrow i k hk
      simp only [x]
      have e : q.tab.names.length + (sm.nI + sm.nE) + (i * (i + 1) / 2 + k) = N + m + (startIdx i + k) := rfl
      rw [e, if_neg (by omega), if_neg (by omega), Nat.add_assoc, Nat.add_sub_cancel_left, Nat.add_sub_cancel_left, this, Nat.add_sub_cancel_left]
  · rintro ⟨x, hx, hxv⟩
    obtain ⟨env, mult, P, pk, -⟩ := (hiff x).1 hx
    refine ⟨mult, fun i k => if i < h.ptCounter then P i k else 0, fun i k hk => ?_, fun i => ?_, pk.dual.congr ?_ ?_⟩
    · simp only; split
      · exact pk.upper i k hk
      · rfl
    · simp only; split
      · exact pk.diag i (by assumption)
      · exact le_rfl
    · intro km hkm n hn'
      have hnp : n ∈ params := (translate_of hC hr hs hm).occurs (qcqp_clean hC hr hclean hm) km hkm n hn'
      obtain ⟨sm2, hm2, hq2⟩ := solveQcqp_inv hq
      obtain ⟨dd, bs, k1, k2, -⟩ := qcqpNlp_core hq2
      obtain ⟨o, pre, -⟩ := qData_table hC hp k1
      have hmem : VName.str n ∈ q.tab.names := by
        rw [k2]
        exact pre.subset (List.mem_cons_of_mem _ (List.mem_map.2 ⟨n, hnp, rfl⟩))
      obtain ⟨i, hi'⟩ := List.getElem?_of_mem hmem
      have e1 := pk.monos i _ hi'
      have e2 := hxv i _ hi'
      rw [e1] at e2
      simp only [VName.val] at e2
      rwa [longEnv_plain (hpl n hnp), longEnv_plain (hpl n hnp)] at e2
    · intro i hi' j hj'
      simp only [if_pos hi', if_pos hj']

/-- **C29**, the corner the code misses: with exactly one constraint, `solve_fix_discr_sdp` raises ValueError for every parameter values. -/
theorem C29_single {q : QData} {dimG dimF : ℕ} (h1 : q.s.nI + q.s.nE = 1) {v : List ℚ} (hv : varsToVector q.tab.names vals = .ok v) :
    fixedSdpWith q dimG dimF vals = .error .value := by
  rw [fixedSdpWith, hv]
  show (if _ then _ else _) = _
  rw [if_pos h1]

end Verif
