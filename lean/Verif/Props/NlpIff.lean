import Verif.Proofs.NlpIff
import Verif.Props.Qcqp

/-!
# C26, completeness: the direct nonlinear program is feasible exactly at the parameters with a certificate; C41: reciprocals are enforced
-/

namespace Verif
open Heap

variable {C : CAS} {prog : List Instr} {r : Regs} {h h' : Heap} {params : List Name} {bounds : List Bound} {init : List Name} {nlp : Nlp}

theorem DualFeasible.congr_mult {sm : SymMats} {dimG dimF : ℕ} {env : Name → ℝ} {mult mult' : SpKey → ℝ} {Z : ℕ → ℕ → ℝ}
    (he : ∀ k ∈ Dict.keys sm.spExp, k ≠ .obj → mult k = mult' k) (d : DualFeasible sm dimG dimF env mult Z) : DualFeasible sm dimG dimF env mult' Z := by
  have hm : ∀ en ∈ sm.spExp.filter fun en => en.1 ≠ .obj, mult en.1 = mult' en.1 := by
    intro en hen
    obtain ⟨h1, h2⟩ := List.mem_filter.1 hen
    exact he _ (List.mem_map_of_mem h1) (by simpa using h2)
  refine ⟨fun k i j hk => ?_, fun k hk => ?_, fun i hi j hj => ?_⟩
  · rw [← he _ hk (by simp)]; exact d.nonneg k i j hk
  · rw [← d.F k hk, SymMats.dualF, SymMats.dualF]
    congr 2
    exact List.map_congr_left fun en hen => by rw [hm en hen]
  · rw [← d.G i hi j hj, SymMats.dualG, SymMats.dualG]
    congr 2
    exact List.map_congr_left fun en hen => by rw [hm en hen]

theorem mem_expectedKeys {cons : List (ExId × Kind)} {ns : List ℕ} {key : SpKey} (hk : key ∈ expectedKeys cons ns) (hne : key ≠ .obj) :
    (∃ i < (ineqCons cons).length, key = .tup 0 0 i 0) ∨
    (∃ idx n a b, ns[idx]? = some n ∧ a < n ∧ b < n ∧ key = .tup 0 (fnShift cons + idx) a b) ∨
    ∃ i < (eqCons cons).length, key = .tup 1 0 i 0 := by
  rw [expectedKeys] at hk
  rcases List.mem_append.1 hk with hk | hk
  · rcases List.mem_append.1 hk with hk | hk
    · rcases List.mem_append.1 hk with hk | hk
      · obtain ⟨i, hi, rfl⟩ := List.mem_map.1 hk
        exact Or.inl ⟨i, List.mem_range.1 hi, rfl⟩
      · obtain ⟨idx, n, a, b, h1, h2, h3, h4⟩ := mem_fnKeys_inv hk
        exact Or.inr (Or.inl ⟨idx, n, a, b, h1, h3, h4, h2⟩)
    · obtain ⟨i, hi, rfl⟩ := List.mem_map.1 hk
      exact Or.inr (Or.inr ⟨i, List.mem_range.1 hi, rfl⟩)
  · exact absurd (List.mem_singleton.1 hk) hne

theorem symVal_nu {st : CaState} {σ : ℕ → ℕ → ℕ → ℝ} {i j : ℕ} {v : CaVar} (h : st.vars.get? "nu0" = some v) :
    st.symVal σ (nuName 0 i j) = σ v.id i j := by
  obtain ⟨-, h1, h2⟩ := C21_nu 0 i j
  rw [CaState.symVal, if_pos (show IsDual _ from Or.inr h1), h2]
  simp only
  rw [show "nu" ++ toString 0 = "nu0" by decide +kernel, h]

/-- any certificate is a solution of the constraints before the dual equations, together with the dual equations -/
theorem Pre.realize {cons : List (ExId × Kind)} {ns : List ℕ} {dimG dimF pid : ℕ} {st : CaState} {sm : SymMats} (p : Pre cons ns dimG params bounds pid st)
    (s : SimpleParams params) (hb : ∀ b ∈ bounds, b.name ∈ scalarNames params) (hkeys : Dict.keys sm.spExp = expectedKeys cons ns)
    (hocc : ∀ en ∈ sm.spExp, ∀ n, en.2.Occurs n → n ∈ params) {env : Name → ℝ} (hcert : Certified sm dimG dimF env) (hinv : InvOk params env)
    (hbd : BoundsOk bounds env) (hlow : ∀ n ∈ ["eta", "rho", "h"], 0 ≤ env n) :
    ∃ σ, st.Sat σ ∧ EqsAt sm dimG dimF pid st σ ∧ ∀ n ∈ scalarNames params, st.value σ n = env n := by
  classical
  obtain ⟨mult, P, hup, hdiag, d⟩ := hcert
  let val : Name → ℕ → ℕ → ℝ := fun n a b =>
    if n = "P" then P a b else if hk : ∃ k, n = lambVar k then
      (if SpKey.tup 0 hk.choose a b ∈ Dict.keys sm.spExp then mult (.tup 0 hk.choose a b) else 0)
    else if n = "nu0" then mult (.tup 1 0 a b) else env n
  obtain ⟨σ, hσ⟩ := p.inj.realize val
  have hPd : ¬ IsDual "P" := by decide +kernel
  have hnud : IsDual "nu0" := by decide +kernel
  have hl0 : lambVar 0 = "lamb0" := by decide +kernel
  have hnotnu : ∀ k, "nu0" ≠ lambVar k := by
    intro k hh
    have h1 := congrArg (fun s : String => s.toList.take 1) hh
    simp only [lambVar, String.toList_append] at h1
    revert h1
    have a1 : ("lamb" : String).toList = ['l', 'a', 'm', 'b'] := by decide
    have a2 : ("nu0" : String).toList = ['n', 'u', '0'] := by decide
    rw [a1, a2]; simp
  have hlv : ∀ k a b, val (lambVar k) a b = if SpKey.tup 0 k a b ∈ Dict.keys sm.spExp then mult (.tup 0 k a b) else 0 := by
    intro k a b
    have hk : ∃ j, lambVar k = lambVar j := ⟨k, rfl⟩
    have hc : hk.choose = k := (lambVar_inj hk.choose_spec).symm
    simp only [val]
    rw [if_neg (show lambVar k ≠ "P" from fun hh => hPd (hh ▸ lambVar_isDual k)), dif_pos hk, hc]
  have hlnn : ∀ k a b, 0 ≤ val (lambVar k) a b := by
    intro k a b
    rw [hlv]
    split
    · rename_i hk; exact d.nonneg _ _ _ hk
    · exact le_rfl
  have hscal : ∀ n ∈ scalarNames params, st.value σ n = env n := by
    intro n hn
    obtain ⟨v, hv, -⟩ := p.scalars n hn
    have h1 := s.scalarNames hn
    rw [value_of_get hv, hσ n v hv]
    simp only [val]
    rw [if_neg h1.2.2, dif_neg (by rintro ⟨k, rfl⟩; exact h1.2.1 (lambVar_isDual k)), if_neg (by rintro rfl; exact h1.2.1 hnud)]
  have hpar : ∀ n ∈ params, st.value σ n = env n := fun n hn => hscal n (by rw [scalarNames]; simp [hn])
  have hP : σ pid = P := by
    rw [hσ "P" _ p.P]
    funext a b
    simp [val]
  have hlow' : ∀ i k, lowerOf σ pid i k = P i k := by
    intro i k
    rw [lowerOf, hP]
    split
    · rfl
    · exact (hup i k (by omega)).symm
  have hlamb : ∀ k a b v, st.vars.get? (lambVar k) = some v → st.symVal σ (lambName k a b) = val (lambVar k) a b := by
    intro k a b v hv
    rw [symVal_lamb hv, hσ _ v hv]
  have hmult : ∀ key ∈ Dict.keys sm.spExp, key ≠ .obj → mult key = st.symVal σ key.name := by
    intro key hkey hne
    have hkey' := hkey
    rw [hkeys] at hkey
    rcases mem_expectedKeys hkey hne with ⟨i, hi, rfl⟩ | ⟨idx, n, a, b, h1, ha, hb, rfl⟩ | ⟨i, hi, rfl⟩
    · obtain ⟨v, hv, -⟩ := p.extra (by omega)
      show _ = st.symVal σ (lambName 0 i 0)
      rw [hlamb 0 i 0 v (by rw [hl0]; exact hv), hlv, if_pos hkey']
    · obtain ⟨v, hv, -⟩ := p.fns idx n h1
      show _ = st.symVal σ (lambName _ a b)
      rw [hlamb _ a b v hv, hlv, if_pos hkey']
    · obtain ⟨v, hv, -⟩ := p.nu (by omega)
      show _ = st.symVal σ (nuName 0 i 0)
      rw [symVal_nu hv, hσ _ v hv]
      simp only [val]
      rw [if_neg (by decide), dif_neg (by rintro ⟨k, hk⟩; exact hnotnu k hk), if_pos trivial]
  have d' : DualFeasible sm dimG dimF (st.value σ) (fun key => st.symVal σ key.name) fun i j => ∑ k ∈ Finset.range dimG, lowerOf σ pid i k * lowerOf σ pid j k :=
    (d.congr (fun km hkm n hn => (hpar n (hocc km hkm n hn)).symm) (fun i _ j _ => by simp only [hlow'])).congr_mult hmult
  refine ⟨σ, (p.sat σ).2 ⟨?_, ?_, ?_, ?_, ?_, ?_⟩, ⟨d'.F, d'.G⟩, hscal⟩
  · intro v hv
    rw [hscal v (by rw [scalarNames]; simp [hv]), hpar _ (s.mem_inv hv).1]
    exact hinv v hv
  · intro i hi
    rw [hP]; exact hdiag i hi
  · intro b hbb
    have := hbd b hbb
    have hh := s.scalarNames (hb b hbb)
    rwa [longEnv_plain hh.1, ← hscal _ (hb b hbb), ← longEnv_plain (env := st.value σ) hh.1] at this
  · intro n hn
    rw [hscal n (by rw [scalarNames, baseNames]; revert n; simp)]
    exact hlow n hn
  · intro i hi
    obtain ⟨v, hv, -⟩ := p.extra (by omega)
    rw [hlamb 0 i 0 v (by rw [hl0]; exact hv)]
    exact hlnn _ _ _
  · intro idx n hn a _ b _
    obtain ⟨v, hv, -⟩ := p.fns idx n hn
    rw [hlamb _ a b v hv]
    exact hlnn _ _ _

/-- **C26**, both directions.  Let a program use only the symbols `params` and add no numeric constants, let the parameter names be
simple, let the bounds name scalar variables, and let `solve_ipopt` build its nonlinear program.  Then for all values `env` of the scalar
variables: the program has a feasible point with these values iff the dual system of the problem's matrices has a solution at `env`, the
reciprocal parameters are positive and reciprocal, the bounds hold and `eta`, `rho`, `h` are nonnegative. -/
theorem C26_iff (hC : C.Lawful) (hr : runProblem C prog Heap.empty = .ok (r, h)) (hclean : ∀ i ∈ prog, i.Clean {n | n ∈ params})
    (s : SimpleParams params) (hb : ∀ b ∈ bounds, b.name ∈ scalarNames params) (hs : Solvable r h)
    (hn : solveIpopt C r params bounds init h = .ok (nlp, h')) :
    ∃ sm, problemMatrices C r h = .ok (sm, h') ∧ ∀ env : Name → ℝ,
      (∃ σ, nlp.state.Sat σ ∧ ∀ n ∈ scalarNames params, nlp.state.value σ n = env n) ↔
        Certified sm h.ptCounter h.exCounter env ∧ InvOk params env ∧ BoundsOk bounds env ∧ ∀ n ∈ ["eta", "rho", "h"], 0 ≤ env n := by
  obtain ⟨sm, h1, h2⟩ := solveIpopt_inv hn
  refine ⟨sm, h1, fun env => ?_⟩
  have t := translate_of hC hr hs h1
  have hc := qcqp_clean hC hr hclean h1
  rw [t.nSamples_eq fun f hf => leafFnIds_fn hf] at h2
  have hocc : ∀ en ∈ sm.spExp, ∀ n, en.2.Occurs n → n ∈ params := fun en hen n hn => t.occurs hc en hen n hn
  have hpl : ∀ n ∈ params, Plain n := fun n hn => (s.names n (List.mem_append_left _ hn)).1
  have hnd : ∀ n ∈ params, ¬ IsDual n := fun n hn => (s.names n (List.mem_append_left _ hn)).2.1
  obtain ⟨st, pid, p, hpid, hf⟩ := ipoptNlp_pre h2 t.nE s hb
  obtain ⟨f1, f2, f3⟩ := finish_iff hC p.good hpid hf (by rw [t.keys]; exact nodup_expectedKeys _ _) t.sum hocc hpl hnd
  have hval : ∀ σ, ∀ n ∈ scalarNames params, nlp.state.value σ n = st.value σ n := fun σ n hn => value_congr_get (f3 n (s.scalarNames hn).1) σ
  constructor
  · rintro ⟨σ, hσ, hv⟩
    obtain ⟨hs', heq⟩ := f1 σ hσ
    obtain ⟨i1, i2, i3, i4, i5, i6⟩ := (p.sat σ).1 hs'
    have hv' : ∀ n ∈ scalarNames params, st.value σ n = env n := fun n hn => by rw [← hval σ n hn, hv n hn]
    have hpar : ∀ n ∈ params, st.value σ n = env n := fun n hn => hv' n (by rw [scalarNames]; simp [hn])
    have d : DualFeasible sm h.ptCounter h.exCounter (st.value σ) (fun key => st.symVal σ key.name)
        fun i j => ∑ k ∈ Finset.range h.ptCounter, lowerOf σ pid i k * lowerOf σ pid j k := by
      refine ⟨fun k i j hk => ?_, heq.1, heq.2⟩
      rw [t.keys] at hk
      rcases mem_expectedKeys hk (by simp) with ⟨i', hi, he⟩ | ⟨idx, n, a, b, hx, ha, hb', he⟩ | ⟨i', hi, he⟩
      · simp only [SpKey.tup.injEq, true_and] at he
        obtain ⟨rfl, rfl, rfl⟩ := he
        exact i5 i hi
      · simp only [SpKey.tup.injEq, true_and] at he
        obtain ⟨rfl, rfl, rfl⟩ := he
        exact i6 idx n hx _ ha _ hb'
      · simp at he
    refine ⟨⟨_, lowerOf σ pid, fun i k hik => ?_, fun i hi => ?_, d.congr (fun km hkm n hn => hpar n (hocc km hkm n hn)) fun _ _ _ _ => rfl⟩, ?_, ?_, ?_⟩
    · rw [lowerOf, if_neg (by omega)]
    · rw [lowerOf, if_pos le_rfl]; exact i2 i hi
    · intro v hv1
      rw [← hv' v (by rw [scalarNames]; simp [hv1]), ← hpar _ (s.mem_inv hv1).1]
      exact i1 v hv1
    · intro b hbb
      have := i3 b hbb
      have hh := s.scalarNames (hb b hbb)
      rwa [longEnv_plain hh.1, hv' _ (hb b hbb), ← longEnv_plain (env := env) hh.1] at this
    · intro n hn
      rw [← hv' n (by rw [scalarNames, baseNames]; revert n; simp)]
      exact i4 n hn
  · rintro ⟨hcert, hinv, hbd, hlow⟩
    obtain ⟨σ, s1, e1, v1⟩ := p.realize s hb t.keys hocc hcert hinv hbd hlow
    obtain ⟨σ', a, s2⟩ := f2 σ s1 e1
    refine ⟨σ', s2, fun n hn => ?_⟩
    rw [hval σ' n hn, value_congr p.good.wf a, v1 n hn]

/-- **C41**, direct nonlinear program: in every feasible point the parameters `v` and `inv` + `v` are positive and reciprocal. -/
theorem C41_ipopt (hC : C.Lawful) (hr : runProblem C prog Heap.empty = .ok (r, h)) (hclean : ∀ i ∈ prog, i.Clean {n | n ∈ params})
    (s : SimpleParams params) (hb : ∀ b ∈ bounds, b.name ∈ scalarNames params) (hs : Solvable r h)
    (hn : solveIpopt C r params bounds init h = .ok (nlp, h')) {σ : ℕ → ℕ → ℕ → ℝ} (hσ : nlp.state.Sat σ) {v : Name} (hv : "inv" ++ v ∈ params) :
    nlp.state.value σ v * nlp.state.value σ ("inv" ++ v) = 1 ∧ 0 < nlp.state.value σ v := by
  obtain ⟨sm, -, hiff⟩ := C26_iff hC hr hclean s hb hs hn
  obtain ⟨-, hi, -⟩ := (hiff (nlp.state.value σ)).1 ⟨σ, hσ, fun _ _ => rfl⟩
  have hmem : v ∈ invParams params := (C41_recognised (params := params) fun n hn hin => by
    obtain ⟨w, rfl, -⟩ := s.inv n hn hin
    rw [inv_toList]; exact ⟨w.toList, rfl⟩).2 hv
  obtain ⟨h1, h2⟩ := hi v hmem
  exact ⟨h1, lt_of_lt_of_le (by norm_num) h2⟩

/-- **C41**, QCQP: in every feasible vector the entries of `v` and `inv` + `v` are positive and reciprocal. -/
theorem C41_qcqp {extra : ℕ} {q : Qcqp} (hC : C.Lawful) (hr : runProblem C prog Heap.empty = .ok (r, h)) (hclean : ∀ i ∈ prog, i.Clean {n | n ∈ params})
    (s : SimpleParams params) (hs : Solvable r h) (hn : solveQcqp C r params bounds extra h = .ok (q, h'))
    (hb : ∀ b ∈ bounds, VName.str b.name ∈ q.tab.names ∧ b.name ≠ "x") {x : ℕ → ℝ} (hx : q.Sat x) {v : Name} (hv : "inv" ++ v ∈ params) {i j : ℕ}
    (hi : q.tab.names[i]? = some (.str v)) (hj : q.tab.names[j]? = some (.str ("inv" ++ v))) : x i * x j = 1 ∧ 0 < x i := by
  have hpl : ∀ n ∈ params, Plain n := fun n hn => (s.names n (List.mem_append_left _ hn)).1
  obtain ⟨sm, hm, hiff, -⟩ := C27_iff hC hr hclean s.nodup hpl hs hn hb
  obtain ⟨env, mult, P, pk, hinv, -⟩ := (hiff x).1 hx
  have hmem : v ∈ invParams params := (C41_recognised (params := params) fun n hn hin => by
    obtain ⟨w, rfl, -⟩ := s.inv n hn hin
    rw [inv_toList]; exact ⟨w.toList, rfl⟩).2 hv
  obtain ⟨h1, h2⟩ := hinv v hmem
  have e1 : x i = env v := (pk.monos _ _ hi).trans (longEnv_plain (s.names v (List.mem_append_right _ hmem)).1)
  have e2 : x j = env ("inv" ++ v) := (pk.monos _ _ hj).trans (longEnv_plain (hpl _ hv))
  rw [e1, e2]
  exact ⟨h1, lt_of_lt_of_le (by norm_num) h2⟩


variable {extra : ℕ} {q : Qcqp}

/-- **C27**, at given parameter values: the QCQP has a feasible vector whose monomials have the values given by `env` iff the dual system
has a solution at `env` and `env` satisfies the reciprocal conditions, the bounds and the four lower bounds. -/
theorem C27_env (hC : C.Lawful) (hr : runProblem C prog Heap.empty = .ok (r, h)) (hclean : ∀ i ∈ prog, i.Clean {n | n ∈ params})
    (hp : params.Nodup) (hpl : ∀ n ∈ params, Plain n) (hs : Solvable r h) (hq : solveQcqp C r params bounds extra h = .ok (q, h'))
    (hb : ∀ b ∈ bounds, b.name ∈ params ∧ b.name ≠ "x")
    (hin : ∀ v ∈ invParams params, v ∈ params ∧ "inv" ++ v ∈ params) (hlo : ∀ n ∈ ["eta", "h", "rho", "gamma"], n ∈ params) :
    ∃ sm, problemMatrices C r h = .ok (sm, h') ∧ ∀ env : Name → ℝ,
      (∃ x, q.Sat x ∧ ∀ i n, q.tab.names[i]? = some n → x i = n.val env) ↔
        Certified sm h.ptCounter h.exCounter env ∧ InvOk params env ∧ BoundsOk bounds env ∧ ∀ n ∈ ["eta", "h", "rho", "gamma"], 1 / 10000000 ≤ env n := by
  have hpos : ∀ n ∈ params, VName.str n ∈ q.tab.names := by
    intro n hnp
    obtain ⟨sm2, hm2, hq2⟩ := solveQcqp_inv hq
    obtain ⟨dd, bs, k1, k2, -⟩ := qcqpNlp_core hq2
    obtain ⟨o, pre, -⟩ := qData_table hC hp k1
    rw [k2]
    exact pre.subset (List.mem_cons_of_mem _ (List.mem_map.2 ⟨n, hnp, rfl⟩))
  obtain ⟨sm, hm, hiff, -⟩ := C27_iff hC hr hclean hp hpl hs hq fun b hbb => ⟨hpos _ (hb b hbb).1, (hb b hbb).2⟩
  refine ⟨sm, hm, fun env => ⟨?_, ?_⟩⟩
  · rintro ⟨x, hx, hxv⟩
    obtain ⟨env', mult, P, pk, hi, hbo, hlow⟩ := (hiff x).1 hx
    have hee : ∀ n ∈ params, env' n = env n := by
      intro n hnp
      obtain ⟨i, hi'⟩ := List.getElem?_of_mem (hpos n hnp)
      have e1 := pk.monos i _ hi'
      have e2 := hxv i _ hi'
      rw [e1] at e2
      simp only [VName.val] at e2
      rwa [longEnv_plain (hpl n hnp), longEnv_plain (hpl n hnp)] at e2
    refine ⟨⟨mult, P, pk.upper, pk.diag, pk.dual.congr (fun km hkm n hn' => hee n
      ((translate_of hC hr hs hm).occurs (qcqp_clean hC hr hclean hm) km hkm n hn')) fun _ _ _ _ => rfl⟩, ?_, ?_, ?_⟩
    · intro v hv
      rw [← hee v (hin v hv).1, ← hee _ (hin v hv).2]
      exact hi v hv
    · intro b hbb
      have := hbo b hbb
      have hh := hpl _ (hb b hbb).1
      rwa [longEnv_plain hh, hee _ (hb b hbb).1, ← longEnv_plain (env := env) hh] at this
    · intro n hn
      rw [← hee n (hlo n hn)]
      exact hlow n hn
  · rintro ⟨⟨mult, P, h1, h2, d⟩, hi, hbo, hlow⟩
    set N := q.tab.names.length with hN
    set m := sm.nI + sm.nE with hmm
    have t := translate_of hC hr hs hm
    have hkl : (Dict.keys sm.spExp).length = m + 1 := by
      obtain ⟨ents, obj, pr⟩ := t.prepared
      rw [pr.sp, Dict.keys_append, List.length_append, Dict.keys, List.length_map, pr.len]; rfl
    -- rows of the triangle are recovered from the position
    let rowOf : ℕ → ℕ := fun k => Nat.findGreatest (fun i => startIdx i ≤ k) k
    have hrow : ∀ i k, k ≤ i → rowOf (startIdx i + k) = i := by
      intro i k hk
      have hmono : ∀ a b, a < b → startIdx a + a + 1 ≤ startIdx b := fun a b hab => startIdx_lt hab
      have hge : i ≤ startIdx i + k := by
        rcases Nat.eq_zero_or_pos i with h0 | h0
        · omega
        · have := hmono (i - 1) i (by omega); omega
      apply le_antisymm
      · by_contra hlt
        push Not at hlt
        have hs1 : startIdx (rowOf (startIdx i + k)) ≤ startIdx i + k :=
          Nat.findGreatest_spec (P := fun j => startIdx j ≤ startIdx i + k) hge (by omega)
        have := hmono _ _ hlt
        omega
      · exact Nat.le_findGreatest hge (by omega)
    let x : ℕ → ℝ := fun i =>
      if i < N then (match q.tab.names[i]? with | some n => n.val env | none => 0)
      else if i < N + m then (match (Dict.keys sm.spExp)[i - N]? with | some k => mult k | none => 0)
      else P (rowOf (i - N - m)) (i - N - m - startIdx (rowOf (i - N - m)))
    have hx : ∀ i n, q.tab.names[i]? = some n → x i = n.val env := by
      intro i n hin
      have := (List.getElem?_eq_some_iff.1 hin).1
      simp only [x]
      rw [if_pos (by omega), hin]
    refine ⟨x, (hiff x).2 ⟨env, mult, P, ⟨hx, ?_, ?_, h1, h2, d⟩, hi, hbo, hlow⟩, hx⟩
    · intro k key hk hne
      have hkm : k < m := by
        have h3 := (List.getElem?_eq_some_iff.1 hk).1
        rcases Nat.lt_or_ge k m with h4 | h4
        · exact h4
        · exfalso
          have h5 : k = m := by omega
          subst h5
          obtain ⟨ents, obj, pr⟩ := t.prepared
          rw [pr.sp, Dict.keys_append, List.getElem?_append_right (by simp [Dict.keys, pr.len, hmm])] at hk
          simp [Dict.keys, pr.len, hmm] at hk
          exact hne hk.symm
      simp only [x]
      rw [if_neg (by omega), if_pos (by omega), ← hN, Nat.add_sub_cancel_left, hk]
    · intro i _ k hk
      have := hrow i k hk
      simp only [x]
      have e : q.tab.names.length + (sm.nI + sm.nE) + (i * (i + 1) / 2 + k) = N + m + (startIdx i + k) := rfl
      rw [e, if_neg (by omega), if_neg (by omega), Nat.add_assoc, Nat.add_sub_cancel_left, Nat.add_sub_cancel_left, this, Nat.add_sub_cancel_left]

/-- **C28**, direct nonlinear program and QCQP: at all parameter values, `solve_ipopt` has a feasible point and the four lower bounds hold
iff `solve_ipopt_qcqp` has a feasible vector. -/
theorem C28_direct {h'' : Heap} (hC : C.Lawful) (hr : runProblem C prog Heap.empty = .ok (r, h)) (hclean : ∀ i ∈ prog, i.Clean {n | n ∈ params})
    (s : SimpleParams params) (hs : Solvable r h) (hn : solveIpopt C r params bounds init h = .ok (nlp, h'))
    (hq : solveQcqp C r params bounds extra h = .ok (q, h'')) (hb : ∀ b ∈ bounds, b.name ∈ params ∧ b.name ≠ "x")
    (hin : ∀ v, "inv" ++ v ∈ params → v ∈ params) (hlo : ∀ n ∈ ["eta", "h", "rho", "gamma"], n ∈ params) (env : Name → ℝ) :
    ((∃ σ, nlp.state.Sat σ ∧ ∀ n ∈ scalarNames params, nlp.state.value σ n = env n) ∧ ∀ n ∈ ["eta", "h", "rho", "gamma"], 1 / 10000000 ≤ env n) ↔
      ∃ x, q.Sat x ∧ ∀ i n, q.tab.names[i]? = some n → x i = n.val env := by
  have hpl : ∀ n ∈ params, Plain n := fun n hn => (s.names n (List.mem_append_left _ hn)).1
  obtain ⟨sm, hm, h1⟩ := C26_iff hC hr hclean s (fun b hbb => by rw [scalarNames]; simp [(hb b hbb).1]) hs hn
  obtain ⟨sm', hm', h2⟩ := C27_env hC hr hclean s.nodup hpl hs hq hb (fun v hv => ⟨hin v (s.mem_inv hv).1, (s.mem_inv hv).1⟩) hlo
  rw [hm] at hm'
  injection hm' with hm'
  simp only [Prod.mk.injEq] at hm'
  obtain ⟨rfl, rfl⟩ := hm'
  rw [h1, h2]
  constructor
  · rintro ⟨⟨a, b, c, -⟩, d⟩; exact ⟨a, b, c, d⟩
  · rintro ⟨a, b, c, d⟩
    refine ⟨⟨a, b, c, fun n hn => ?_⟩, d⟩
    have := d n (by revert n; simp)
    linarith

/-! ### Non-vacuity -/

theorem descentParams2_simple : SimpleParams descentParams2 := by
  refine ⟨by decide, by decide +kernel, ?_⟩
  intro n hn hi
  simp only [descentParams2, List.mem_cons, List.not_mem_nil, or_false] at hn
  rcases hn with rfl | rfl | rfl | rfl | rfl
  · exact absurd hi (by decide +kernel)
  · exact absurd hi (by decide +kernel)
  · exact absurd hi (by decide +kernel)
  · exact absurd hi (by decide +kernel)
  · exact ⟨"h", by decide +kernel, by decide +kernel⟩

/-- `eta = 3/16, h = 1/4, rho = 1, gamma = 2, invh = 4`; one multiplier 1, `P = diag (0, 1/4, 1/2)`; `gamma_h = 1/2` -/
def descentSol2 : ℕ → ℕ → ℕ → ℚ
  | 0, 0, 0 => 3 / 16
  | 1, 0, 0 => 1
  | 3, 0, 0 => 2
  | 8, 0, 0 => 1 / 4
  | 9, 0, 0 => 4
  | 7, 1, 1 => 1 / 4
  | 7, 2, 2 => 1 / 2
  | 10, 0, 1 => 1
  | 11, 0, 0 => 1 / 2
  | _, _, _ => 0

theorem descent2_feasible : ∃ r h nlp h', runProblem refCAS descentProg2 Heap.empty = .ok (r, h) ∧
    solveIpopt refCAS r descentParams2 [⟨"h", none, some (1 / 8)⟩] [] h = .ok (nlp, h') ∧ Solvable r h ∧
    nlp.state.Sat fun v a b => ((descentSol2 v a b : ℚ) : ℝ) := feasible_of_check (by decide +kernel)

theorem descent2_clean : ∀ i ∈ descentProg2, i.Clean {n | n ∈ descentParams2} := by
  intro i hi
  simp only [descentProg2, List.mem_cons, List.not_mem_nil, or_false] at hi
  rcases hi with rfl | rfl | rfl | rfl | rfl | rfl | rfl <;> simp [Instr.Clean, PE.Clean, EE.Clean, Sym.vars, descentParams2]

/-- all hypotheses of `C26_iff` and `C41_ipopt` are met by the descent lemma with a reciprocal parameter and a bound, and both sides of the
equivalence hold at the parameter values above -/
example : ∃ (sm : SymMats) (dimG dimF : ℕ) (env : Name → ℝ), Certified sm dimG dimF env ∧ env "h" * env "invh" = 1 ∧ 0 < env "h" := by
  obtain ⟨r, h, nlp, h', h1, h2, h3, h4⟩ := descent2_feasible
  have hb : ∀ b ∈ [(⟨"h", none, some (1 / 8)⟩ : Bound)], b.name ∈ scalarNames descentParams2 := by decide +kernel
  obtain ⟨sm, -, hiff⟩ := C26_iff refCAS_lawful h1 descent2_clean descentParams2_simple hb h3 h2
  refine ⟨sm, _, _, _, ((hiff _).1 ⟨_, h4, fun _ _ => rfl⟩).1, ?_⟩
  exact C41_ipopt refCAS_lawful h1 descent2_clean descentParams2_simple hb h3 h2 h4 (v := "h") (by decide +kernel)

end Verif
