import Verif.Proofs.Init
import Verif.Props.Total

/-!
# C65: initial values choose the starting point and nothing else
-/

namespace Verif
open Heap

variable {C : CAS} {h h' h'' : Heap} {r : Regs} {prog : List Instr} {params : List Name} {a : SolveArgs} {k k' : StartArgs} {G G' : Given} {solver : String}

theorem M.ofExcept_ok {α : Type} {e : Except Err α} {x : α} {h h' : Heap} (hx : M.ofExcept e h = .ok (x, h')) : e = .ok x ∧ h' = h := by
  cases e with
  | error e => cases hx
  | ok b =>
    injection hx with hx
    simp only [Prod.mk.injEq] at hx
    exact ⟨by rw [hx.1], hx.2.symm⟩

theorem solveIpopt_of {sm : SymMats} (h1 : problemMatrices C r h = .ok (sm, h')) (bounds : List Bound) (init : List Name) :
    solveIpopt C r params bounds init h =
      match ipoptNlp C sm ((leafFnIds h).map (nSamples h')) r.cons.length h.ptCounter h.exCounter params bounds init r.obj with
      | .ok x => .ok (x, h')
      | .error e => .error e := by
  rw [solveIpopt, M.bind_of_ok (show M.get h = .ok (h, h) from rfl), M.bind_of_ok h1, M.bind_of_ok (show M.get h' = .ok (h', h') from rfl)]
  show (match ipoptNlp C sm ((leafFnIds h).map (nSamples h')) r.cons.length h.ptCounter h.exCounter params bounds init r.obj with
    | .ok x => (pure x : M Nlp)
    | .error e => M.throw e) h' = _
  cases ipoptNlp C sm ((leafFnIds h).map (nSamples h')) r.cons.length h.ptCounter h.exCounter params bounds init r.obj <;> rfl

theorem solveIpopt_init {bounds : List Bound} {init : List Name} {nlp : Nlp} (hs : solveIpopt C r params bounds init h = .ok (nlp, h')) :
    solveIpopt C r params bounds [] h = .ok (nlp, h') ∧ (∀ n ∈ init, nlp.state.vars.has n = true) ∧ Fresh nlp.state := by
  obtain ⟨sm, hm, hn⟩ := solveIpopt_inv hs
  rcases ipoptNlp_finish C sm ((leafFnIds h).map (nSamples h')) r.cons.length h.ptCounter h.exCounter params bounds r.obj with ⟨e, he⟩ | ⟨st, pid, g, hP, he⟩
  · rw [he] at hn; cases hn
  · rw [he] at hn
    obtain ⟨h1, h2⟩ := ipoptFinish_init hn
    refine ⟨by rw [solveIpopt_of hm, he, h1], h2, (finish_conv hn hP).1.fresh g⟩

theorem given_ipopt (hg : givenTo C r params "ipopt" a k h = .ok (some G, h')) :
    ∃ nlp, solveIpopt C r params a.bounds [] h = .ok (nlp, h') ∧ (∀ n ∈ Dict.keys (k.initVals.getD []), nlp.state.vars.has n = true) ∧ Fresh nlp.state ∧
      G.cons = nlp.state.cons ∧ G.obj = nlp.obj ∧ initDirect nlp.state.vars (k.initVals.getD []) Guess.zero = .ok G.start := by
  rw [givenTo, if_pos rfl] at hg
  obtain ⟨nlp, h1, hn, hg1⟩ := M.bind_ok_iff.1 hg
  clear hg
  obtain ⟨g, h2, hi, hg2⟩ := M.bind_ok_iff.1 hg1
  clear hg1
  obtain ⟨hi', rfl⟩ := M.ofExcept_ok hi
  clear hi
  injection hg2 with hg2
  simp only [Prod.mk.injEq, Option.some.injEq] at hg2
  obtain ⟨rfl, rfl⟩ := hg2
  obtain ⟨k1, k2, k3⟩ := solveIpopt_init hn
  exact ⟨nlp, k1, k2, k3, rfl, rfl, hi'⟩

theorem given_qcqp (hg : givenTo C r params "ipopt_qcqp" a k h = .ok (some G, h')) :
    ∃ q g, solveQcqp C r params a.bounds a.extra h = .ok (q, h') ∧ G.cons = q.cons ∧ G.obj = q.obj ∧
      initCa q.s (k.initValues.getD []) Guess.zero = .ok g ∧ initX0 q.s k.x0 g = .ok G.start := by
  rw [givenTo, if_neg (by decide), if_pos rfl] at hg
  obtain ⟨q, h1, hn, hg1⟩ := M.bind_ok_iff.1 hg
  clear hg
  obtain ⟨g, h2, hi, hg2⟩ := M.bind_ok_iff.1 hg1
  clear hg1
  obtain ⟨g2, h3, hi2, hg3⟩ := M.bind_ok_iff.1 hg2
  clear hg2
  obtain ⟨hi', rfl⟩ := M.ofExcept_ok hi
  clear hi
  obtain ⟨hi2', rfl⟩ := M.ofExcept_ok hi2
  clear hi2
  injection hg3 with hg3
  simp only [Prod.mk.injEq, Option.some.injEq] at hg3
  obtain ⟨rfl, rfl⟩ := hg3
  exact ⟨q, g, hn, rfl, rfl, hi', hi2'⟩

theorem given_matrix (hg : givenTo C r params "ipopt_qcqp_matrix" a k h = .ok (some G, h')) :
    ∃ q, solveQcqpMatrix C r params a.bounds h = .ok (q, h') ∧ G.cons = q.cons ∧ G.obj = q.obj ∧
      initCa q.s (k.initValues.getD []) Guess.zero = .ok G.start := by
  rw [givenTo, if_neg (by decide), if_neg (by decide), if_pos rfl] at hg
  obtain ⟨q, h1, hn, hg1⟩ := M.bind_ok_iff.1 hg
  clear hg
  obtain ⟨g, h2, hi, hg2⟩ := M.bind_ok_iff.1 hg1
  clear hg1
  obtain ⟨hi', rfl⟩ := M.ofExcept_ok hi
  clear hi
  injection hg2 with hg2
  simp only [Prod.mk.injEq, Option.some.injEq] at hg2
  obtain ⟨rfl, rfl⟩ := hg2
  exact ⟨q, hn, rfl, rfl, hi'⟩

/-- **C65.** Whatever initial values are passed, and whichever of the three nonlinear formulations is used, Ipopt gets the same constraints
and the same objective, and the problem is left in the same state. -/
theorem C65_same_problem (hg : givenTo C r params solver a k h = .ok (some G, h')) (hg' : givenTo C r params solver a k' h = .ok (some G', h'')) :
    G.cons = G'.cons ∧ G.obj = G'.obj ∧ h' = h'' := by
  by_cases h1 : solver = "ipopt"
  · subst h1
    obtain ⟨n1, a1, -, -, b1, c1, -⟩ := given_ipopt hg
    obtain ⟨n2, a2, -, -, b2, c2, -⟩ := given_ipopt hg'
    rw [a1] at a2
    injection a2 with a2
    simp only [Prod.mk.injEq] at a2
    obtain ⟨rfl, rfl⟩ := a2
    exact ⟨by rw [b1, b2], by rw [c1, c2], rfl⟩
  by_cases h2 : solver = "ipopt_qcqp"
  · subst h2
    obtain ⟨n1, -, a1, b1, c1, -⟩ := given_qcqp hg
    obtain ⟨n2, -, a2, b2, c2, -⟩ := given_qcqp hg'
    rw [a1] at a2
    injection a2 with a2
    simp only [Prod.mk.injEq] at a2
    obtain ⟨rfl, rfl⟩ := a2
    exact ⟨by rw [b1, b2], by rw [c1, c2], rfl⟩
  by_cases h3 : solver = "ipopt_qcqp_matrix"
  · subst h3
    obtain ⟨n1, a1, b1, c1, -⟩ := given_matrix hg
    obtain ⟨n2, a2, b2, c2, -⟩ := given_matrix hg'
    rw [a1] at a2
    injection a2 with a2
    simp only [Prod.mk.injEq] at a2
    obtain ⟨rfl, rfl⟩ := a2
    exact ⟨by rw [b1, b2], by rw [c1, c2], rfl⟩
  · rw [givenTo, if_neg h1, if_neg h2, if_neg h3] at hg
    cases hg

/-- **C65** for `solve_ipopt`: the starting point is the given value for every variable named in `init_vals`, and 0 for every other
variable of the nonlinear program. -/
theorem C65_direct (hd : Dict.NodupKeys (k.initVals.getD [])) (hg : givenTo C r params "ipopt" a k h = .ok (some G, h')) :
    ∃ nlp, solveIpopt C r params a.bounds [] h = .ok (nlp, h') ∧ G.cons = nlp.state.cons ∧ G.obj = nlp.obj ∧
      (∀ n ∈ Dict.keys (k.initVals.getD []), ∃ v, nlp.state.vars.get? n = some v) ∧
      ∀ n v, nlp.state.vars.get? n = some v → ∀ i < v.rows, ∀ j < v.cols, G.start v.id i j = match Dict.get? (k.initVals.getD []) n with
        | some val => val.at_ i j
        | none => 0 := by
  obtain ⟨nlp, k1, k2, k3, k4, k5, k6⟩ := given_ipopt hg
  exact ⟨nlp, k1, k4, k5, fun n hn => Option.isSome_iff_exists.1 (k2 n hn), initDirect_spec k3.inj _ hd k6⟩

/-- **C65** for `solve_ipopt`: a name in `init_vals` that is no variable of the nonlinear program makes `solve` raise KeyError. -/
theorem C65_unknown {nlp : Nlp} (hn : solveIpopt C r params a.bounds [] h = .ok (nlp, h')) {n : Name} (hk : n ∈ Dict.keys (k.initVals.getD []))
    (hu : nlp.state.vars.get? n = none) : givenTo C r params "ipopt" a k h = .error .key := by
  obtain ⟨sm, hm, hn'⟩ := solveIpopt_inv hn
  have hlast : solveIpopt C r params a.bounds (Dict.keys (k.initVals.getD [])) h = .error .key := by
    rcases ipoptNlp_finish C sm ((leafFnIds h).map (nSamples h')) r.cons.length h.ptCounter h.exCounter params a.bounds r.obj with
      ⟨e, he⟩ | ⟨st, pid, g, hP, he⟩
    · rw [he] at hn'; cases hn'
    · rw [he] at hn'
      rw [solveIpopt_of hm, he, ipoptFinish_unknown hn' hk (by rw [Dict.has, hu]; rfl)]
  rw [givenTo, if_pos rfl, M.bind_run, hlast]

/-- **C65** for `solve_ipopt_qcqp`.  If `x0` is given, the starting point is `x0`.  Otherwise, if `init_values` has no entry "x", the block of
"v", "lamb", "nu" or "P" starts at its value in `init_values` if it has one, else at 0. -/
theorem C65_qcqp (hd : Dict.NodupKeys (k.initValues.getD [])) (hg : givenTo C r params "ipopt_qcqp" a k h = .ok (some G, h')) :
    ∃ q, solveQcqp C r params a.bounds a.extra h = .ok (q, h') ∧
      (∀ val, k.x0 = some val → ∀ i < q.s.x, G.start 0 i 0 = val.at_ i 0) ∧
      (k.x0 = none → "x" ∉ Dict.keys (k.initValues.getD []) → ∀ n vi, (vecIndices q.s).get? n = some vi → ∀ j, vi.start + j < vi.stop →
        G.start 0 (vi.start + j) 0 = match Dict.get? (k.initValues.getD []) n with
          | some val => val.at_ j 0
          | none => 0) := by
  obtain ⟨q, g, h1, -, -, h2, h3⟩ := given_qcqp hg
  refine ⟨q, h1, fun val hv i hi => ?_, fun hx hk n vi hvi j hj => ?_⟩
  · rw [hv] at h3
    rw [setInitial_spec h3, if_pos ⟨rfl, Nat.zero_le _, by simpa using hi, Nat.one_pos⟩]
    rfl
  · rw [hx] at h3
    injection h3 with h3
    rw [← h3]
    exact (initCa_blocks _ hd hk h2).1 n vi hvi j hj

/-- **C65** for the entry "x" of `init_values` alone: the first entries of the vector start at its values, the others at 0. -/
theorem C65_qcqp_x {n : ℕ} {e : ℕ → ℕ → ℝ} (hk : k.initValues = some [("x", .arr n 1 e)]) (hx : k.x0 = none)
    (hg : givenTo C r params "ipopt_qcqp" a k h = .ok (some G, h')) : ∀ i, G.start 0 i 0 = if i < n then e i 0 else 0 := by
  obtain ⟨q, g, h1, -, -, h2, h3⟩ := given_qcqp hg
  rw [hx] at h3
  injection h3 with h3
  rw [hk] at h2
  simp only [Option.getD_some] at h2
  rw [initCa, show (vecIndices q.s).get? "x" = none from by rw [vecIndices_get]; simp] at h2
  simp only [if_true, Nat.mul_one] at h2
  split at h2
  · obtain ⟨g1, h4, h2⟩ := Except.bind_ok_iff.1 h2
    rw [initCa] at h2
    injection h2 with h2
    intro i
    rw [← h3, ← h2, setInitial_spec h4]
    simp only [true_and, Nat.zero_le, Nat.zero_add, Nat.one_pos, and_true, Nat.sub_zero]
    rfl
  · cases h2

/-- **C65**, finding: the two QCQP solvers silently ignore every entry of `init_values` whose name is not "v", "lamb", "nu", "P" or "x".  In
particular initial values for the parameters under their own names (as `solve_ipopt` expects them, and as all solvers return them) have
no effect. -/
theorem C65_ignored (hs : solver = "ipopt_qcqp" ∨ solver = "ipopt_qcqp_matrix") {l : Dict Name InitVal} (hk : k.initValues = some l)
    (hk' : k'.initValues = some (l.filter fun nv => nv.1 ∈ ["v", "lamb", "nu", "P", "x"])) (hx : k'.x0 = k.x0) :
    givenTo C r params solver a k h = givenTo C r params solver a k' h := by
  have e : ∀ q : Qcqp, initCa q.s (k.initValues.getD []) Guess.zero = initCa q.s (k'.initValues.getD []) Guess.zero := by
    intro q
    rw [hk, hk']
    exact initCa_filter _ _ _
  rcases hs with rfl | rfl
  · simp only [givenTo, show ¬("ipopt_qcqp" : String) = "ipopt" by decide, if_false, if_true, e, hx]
  · simp only [givenTo, show ¬("ipopt_qcqp_matrix" : String) = "ipopt" by decide,
      show ¬("ipopt_qcqp_matrix" : String) = "ipopt_qcqp" by decide, if_false, if_true, e]

/-- **C65**, finding: each solver reads its own keyword and silently drops those of the others: `solve_ipopt` drops `init_values` and `x0`, the
QCQP solvers drop `init_vals`, and the matrix version drops `x0`. -/
theorem C65_dropped (iv iv' ivs ivs' : Option (Dict Name InitVal)) (x x' : Option InitVal) :
    givenTo C r params "ipopt" a ⟨iv, ivs, x⟩ h = givenTo C r params "ipopt" a ⟨iv, ivs', x'⟩ h ∧
    givenTo C r params "ipopt_qcqp" a ⟨iv, ivs, x⟩ h = givenTo C r params "ipopt_qcqp" a ⟨iv', ivs, x⟩ h ∧
    givenTo C r params "ipopt_qcqp_matrix" a ⟨iv, ivs, x⟩ h = givenTo C r params "ipopt_qcqp_matrix" a ⟨iv', ivs, x'⟩ h := by
  refine ⟨?_, ?_, ?_⟩
  · simp only [givenTo, if_true]
  · simp only [givenTo, show ¬("ipopt_qcqp" : String) = "ipopt" by decide, if_false, if_true]
  · simp only [givenTo, show ¬("ipopt_qcqp_matrix" : String) = "ipopt" by decide,
      show ¬("ipopt_qcqp_matrix" : String) = "ipopt_qcqp" by decide, if_false, if_true]

/-! ### Restarting from a solution -/

theorem pre_agree {cons : List (ExId × Kind)} {ns : List ℕ} {dimG pid : ℕ} {bounds : List Bound} {st : CaState} (p : Pre cons ns dimG params bounds pid st)
    (s : SimpleParams params) (hb : ∀ b ∈ bounds, b.name ∈ scalarNames params) {σ σ' : ℕ → ℕ → ℕ → ℝ} (ha : AgreeUpTo st σ σ') (hσ : st.Sat σ) : st.Sat σ' := by
  have hv : ∀ n ∈ scalarNames params, st.value σ' n = st.value σ n := by
    intro n hn
    obtain ⟨v, hv, h1, h2⟩ := p.scalars n hn
    rw [value_of_get hv, value_of_get hv]
    exact ha n v hv 0 (by omega) 0 (by omega)
  obtain ⟨k1, k2, k3, k4, k5, k6⟩ := (p.sat σ).1 hσ
  refine (p.sat σ').2 ⟨?_, ?_, ?_, ?_, ?_, ?_⟩
  · intro v hvv
    rw [hv v (by simp [scalarNames, hvv]), hv _ (by simp [scalarNames, (s.mem_inv hvv).1])]
    exact k1 v hvv
  · intro i hi
    rw [ha _ _ p.P i hi i hi]
    exact k2 i hi
  · intro b hbb
    have hpl := s.scalarNames (hb b hbb)
    have := k3 b hbb
    rw [longEnv_plain hpl.1] at this ⊢
    rw [hv _ (hb b hbb)]
    exact this
  · intro n hn
    rw [hv n (by simp only [scalarNames, baseNames, List.mem_append]; left; left; revert hn; simp only [List.mem_cons]; tauto)]
    exact k4 n hn
  · intro i hi
    obtain ⟨v, hv, h1, h2⟩ := p.extra (by omega)
    have e : lambVar 0 = "lamb0" := by decide +kernel
    rw [← e] at hv
    have := k5 i hi
    rw [symVal_lamb hv] at this ⊢
    rw [ha _ v hv i (by omega) 0 (by omega)]
    exact this
  · intro idx n hn i hi j hj
    obtain ⟨v, hv, h1, h2⟩ := p.fns idx n hn
    have := k6 idx n hn i hi j hj
    rw [symVal_lamb hv] at this ⊢
    rw [ha _ v hv i (by omega) j (by omega)]
    exact this

/-- **C65**, restart: if the variables of the nonlinear program of `solve_ipopt` satisfy its constraints at `σ`, and `init_vals` passes the value
of every variable (including the products), then the starting point satisfies all constraints and has the same objective value. -/
theorem C65_restart (hC : C.Lawful) (hr : runProblem C prog Heap.empty = .ok (r, h)) (s : SimpleParams params)
    (hb : ∀ b ∈ a.bounds, b.name ∈ scalarNames params) (hs : Solvable r h)
    {nlp : Nlp} (hn : solveIpopt C r params a.bounds [] h = .ok (nlp, h')) {σ : ℕ → ℕ → ℕ → ℝ} (hσ : ∀ c ∈ nlp.state.cons, c.Holds σ)
    (hd : Dict.NodupKeys (k.initVals.getD []))
    (hall : ∀ n v, nlp.state.vars.get? n = some v → ∃ val, Dict.get? (k.initVals.getD []) n = some val ∧
      ∀ i < v.rows, ∀ j < v.cols, val.at_ i j = σ v.id i j)
    (hg : givenTo C r params "ipopt" a k h = .ok (some G, h'')) :
    (∀ c ∈ G.cons, c.Holds G.start) ∧ G.obj.eval G.start = nlp.obj.eval σ := by
  obtain ⟨nlp', k1, k4, k5, -, k6⟩ := C65_direct hd hg
  rw [hn] at k1
  injection k1 with k1
  simp only [Prod.mk.injEq] at k1
  obtain ⟨rfl, rfl⟩ := k1
  have hag : AgreeUpTo nlp.state σ G.start := by
    intro n v hv i hi j hj
    obtain ⟨val, h1, h2⟩ := hall n v hv
    rw [k6 n v hv i hi j hj, h1]
    exact h2 i hi j hj
  obtain ⟨sm, hm, hn'⟩ := solveIpopt_inv hn
  have t := translate_of hC hr hs hm
  obtain ⟨st, pid, p, hpid, hf⟩ := ipoptNlp_pre hn' t.nE s hb
  obtain ⟨cv, hin⟩ := finish_conv hf p.P
  obtain ⟨cs, hcs, hcin⟩ := cv.cons
  rw [k4, k5]
  refine ⟨fun c hc => ?_, hin.eval hag⟩
  have hst : st.Sat σ := fun c hc => hσ c (by rw [hcs]; exact List.mem_append_left _ hc)
  have hst' : st.Sat G.start := pre_agree p s hb (fun n v hv => hag n v (cv.get _ _ hv)) hst
  rw [hcs] at hc
  rcases List.mem_append.1 hc with hc | hc
  · exact hst' c hc
  · exact (hcin c hc).holds hag (hσ c (by rw [hcs]; exact List.mem_append_right _ hc))

theorem Packs.congr {sm : SymMats} {names : List VName} {dimG dimF : ℕ} {x y : ℕ → ℝ} {env : Name → ℝ} {mult : SpKey → ℝ} {P : ℕ → ℕ → ℝ}
    {ents : List (SpKey × FG)} {obj : FG} (pr : sm.Prepared ents obj)
    (hxy : ∀ i < names.length + sm.nI + sm.nE + dimG * (dimG + 1) / 2, y i = x i) (p : Packs sm names dimG dimF x env mult P) :
    Packs sm names dimG dimF y env mult P := by
  refine ⟨fun i n hn => ?_, fun k key hk hne => ?_, fun i hi j hj => ?_, p.upper, p.diag, p.dual⟩
  · rw [← p.monos i n hn]
    have := (List.getElem?_eq_some_iff.1 hn).1
    exact hxy i (by omega)
  · rw [← p.mults k key hk hne]
    have hl : (Dict.keys ents).length = ents.length := by simp [Dict.keys]
    have hlen := pr.len
    have : k < ents.length := by
      by_contra hc
      rw [pr.sp, Dict.keys_append, List.getElem?_append_right (by omega)] at hk
      have := List.mem_of_getElem? hk
      simp at this
      exact hne this
    exact hxy _ (by omega)
  · rw [← p.tri i hi j hj]
    refine hxy _ ?_
    have h1 : (i + 1) * (i + 2) / 2 = i * (i + 1) / 2 + (i + 1) := by
      rw [show (i + 1) * (i + 2) = i * (i + 1) + (i + 1) * 2 by ring, Nat.add_mul_div_right _ _ (by decide)]
    have h2 : (i + 1) * (i + 2) / 2 ≤ dimG * (dimG + 1) / 2 := Nat.div_le_div_right (Nat.mul_le_mul (by omega) (by omega))
    omega

/-- **C65**, restart for `solve_ipopt_qcqp`: if the vector `x` satisfies the constraints of the QCQP and is passed as `x0`, or as the only
entry "x" of `init_values`, then the starting point satisfies all constraints and has the same objective value. -/
theorem C65_restart_qcqp (hC : C.Lawful) (hr : runProblem C prog Heap.empty = .ok (r, h)) (hclean : ∀ i ∈ prog, i.Clean {n | n ∈ params})
    (hp : params.Nodup) (hpl : ∀ n ∈ params, Plain n) (hs : Solvable r h) {q : Qcqp}
    (hn : solveQcqp C r params a.bounds a.extra h = .ok (q, h')) (hb : ∀ b ∈ a.bounds, VName.str b.name ∈ q.tab.names ∧ b.name ≠ "x")
    {x : ℕ → ℝ} (hx : q.Sat x)
    (hk : k.x0 = some (.arr q.s.x 1 fun i _ => x i) ∨ (k.x0 = none ∧ k.initValues = some [("x", .arr q.s.x 1 fun i _ => x i)]))
    (hg : givenTo C r params "ipopt_qcqp" a k h = .ok (some G, h'')) :
    G.cons = q.cons ∧ G.obj = q.obj ∧ q.Sat (fun i => G.start 0 i 0) ∧
      q.obj.eval (fun _ i _ => G.start 0 i 0) = q.obj.eval (fun _ i _ => x i) := by
  obtain ⟨q', g, h1, k4, k5, -, k6⟩ := given_qcqp hg
  rw [hn] at h1
  injection h1 with h1
  simp only [Prod.mk.injEq] at h1
  obtain ⟨rfl, rfl⟩ := h1
  have hst : ∀ i < q.s.x, G.start 0 i 0 = x i := by
    intro i hi
    rcases hk with hk | ⟨hk, hk2⟩
    · rw [hk, initX0] at k6
      rw [setInitial_spec k6, if_pos ⟨rfl, Nat.zero_le _, by simpa using hi, Nat.one_pos⟩]
      rfl
    · rw [C65_qcqp_x hk2 hk hg i, if_pos hi]
  obtain ⟨sm, hm, hiff, hobj⟩ := C27_iff hC hr hclean hp hpl hs hn hb
  have t := translate_of hC hr hs hm
  obtain ⟨ents, obj, pr⟩ := t.prepared
  obtain ⟨sm', hm', hq⟩ := solveQcqp_inv hn
  rw [hm] at hm'
  injection hm' with hm'
  simp only [Prod.mk.injEq, and_true] at hm'
  subst hm'
  obtain ⟨d, bs, j1, j2, j3, -⟩ := qcqpNlp_core hq
  obtain ⟨cs, co, fr⟩ := qData_inv j1
  have hsz : q.s = ⟨q.tab.names.length, sm.nI, sm.nE, h.ptCounter⟩ := by rw [j3, j2, fr.s]
  obtain ⟨env, mult, P, pk, hi, hbo, hl⟩ := (hiff x).1 hx
  have pk' : Packs sm q.tab.names h.ptCounter h.exCounter (fun i => G.start 0 i 0) env mult P :=
    pk.congr pr fun i hi => hst i (by rw [hsz]; exact hi)
  exact ⟨k4, k5, (hiff _).2 ⟨env, mult, P, pk', hi, hbo, hl⟩, by rw [hobj _ _ _ _ pk, hobj _ _ _ _ pk']⟩

/-! ### Which initial values are accepted, and non-vacuity -/

/-- a number fits every variable, an array the variables of its shape -/
def InitVal.Fits : InitVal → ℕ → ℕ → Prop
  | .num _, _, _ => True
  | .arr r c _, rows, cols => r = rows ∧ c = cols

theorem setInitial_ok {g : Guess} {v a rows cols : ℕ} {val : InitVal} : (∃ g', setInitial g v a rows cols val = .ok g') ↔ val.Fits rows cols := by
  cases val with
  | num c => exact ⟨fun _ => trivial, fun _ => ⟨_, rfl⟩⟩
  | arr r c e =>
    rw [setInitial]
    split
    · rename_i h; exact ⟨fun _ => h, fun _ => ⟨_, rfl⟩⟩
    · rename_i h; exact ⟨fun ⟨_, hh⟩ => (by cases hh), fun hh => absurd hh h⟩

theorem initDirect_ok {vars : Dict Name CaVar} : ∀ (l : Dict Name InitVal) (g : Guess),
    (∃ g', initDirect vars l g = .ok g') ↔ ∀ nv ∈ l, ∃ v, vars.get? nv.1 = some v ∧ nv.2.Fits v.rows v.cols := by
  intro l
  induction l with
  | nil => intro g; exact ⟨fun _ nv h => by simp at h, fun _ => ⟨g, rfl⟩⟩
  | cons nv l ih =>
    intro g
    rw [initDirect, List.forall_mem_cons]
    cases hv : vars.get? nv.1 with
    | none => exact ⟨fun ⟨_, h⟩ => (by cases h), fun ⟨⟨v, h, _⟩, _⟩ => (by cases h)⟩
    | some v =>
      simp only
      constructor
      · rintro ⟨g', h⟩
        obtain ⟨g1, h1, h⟩ := Except.bind_ok_iff.1 h
        exact ⟨⟨v, rfl, setInitial_ok.1 ⟨g1, h1⟩⟩, (ih g1).1 ⟨g', h⟩⟩
      · rintro ⟨⟨w, hw, hf⟩, hl⟩
        injection hw with hw
        subst hw
        obtain ⟨g1, h1⟩ := setInitial_ok (g := g) (v := v.id) (a := 0).2 hf
        obtain ⟨g', h2⟩ := (ih g1).2 hl
        exact ⟨g', Except.bind_ok_iff.2 ⟨g1, h1, h2⟩⟩

/-- **C65**, acceptance by `solve_ipopt`: if the program can be built with the given names, the call goes on exactly when every value is a
number or an array of the shape of the variable. -/
theorem C65_accepts {nlp : Nlp} (hn : solveIpopt C r params a.bounds (Dict.keys (k.initVals.getD [])) h = .ok (nlp, h')) :
    (∃ G, givenTo C r params "ipopt" a k h = .ok (some G, h')) ↔
      ∀ nv ∈ k.initVals.getD [], ∃ v, nlp.state.vars.get? nv.1 = some v ∧ nv.2.Fits v.rows v.cols := by
  rw [← initDirect_ok _ Guess.zero]
  constructor
  · rintro ⟨G, hg⟩
    obtain ⟨nlp', h1, -, -, -, -, h2⟩ := given_ipopt hg
    rw [(solveIpopt_init hn).1] at h1
    injection h1 with h1
    simp only [Prod.mk.injEq, and_true] at h1
    subst h1
    exact ⟨_, h2⟩
  · rintro ⟨g, hg⟩
    refine ⟨⟨nlp.state.cons, nlp.obj, g⟩, ?_⟩
    rw [givenTo, if_pos rfl, M.bind_of_ok hn, hg]
    rfl

/-- all variables of the nonlinear program, with their values at `σ` -/
def snapshot (vars : Dict Name CaVar) (σ : ℕ → ℕ → ℕ → ℝ) : Dict Name InitVal := vars.map fun nv => (nv.1, .arr nv.2.rows nv.2.cols (σ nv.2.id))

theorem snapshot_keys (vars : Dict Name CaVar) (σ : ℕ → ℕ → ℕ → ℝ) : Dict.keys (snapshot vars σ) = Dict.keys vars := by
  simp [snapshot, Dict.keys]

theorem snapshot_get (σ : ℕ → ℕ → ℕ → ℝ) (n : Name) : ∀ vars : Dict Name CaVar,
    Dict.get? (snapshot vars σ) n = (vars.get? n).map fun v => InitVal.arr v.rows v.cols (σ v.id)
  | [] => rfl
  | nv :: l => by
    show Dict.get? ((nv.1, InitVal.arr nv.2.rows nv.2.cols (σ nv.2.id)) :: snapshot l σ) n = _
    rw [Dict.get?_cons, Dict.get?_cons, snapshot_get σ n l]
    by_cases hn : nv.1 = n
    · simp [hn]
    · simp [hn]

/-- passing a snapshot of all variables at a feasible point is accepted if the names are, and starts at a feasible point -/
theorem C65_snapshot (hC : C.Lawful) (hr : runProblem C prog Heap.empty = .ok (r, h)) (s : SimpleParams params)
    (hb : ∀ b ∈ a.bounds, b.name ∈ scalarNames params) (hs : Solvable r h) {nlp : Nlp} (hd : nlp.state.vars.NodupKeys)
    (hn : solveIpopt C r params a.bounds (Dict.keys nlp.state.vars) h = .ok (nlp, h')) {σ : ℕ → ℕ → ℕ → ℝ} (hσ : nlp.state.Sat σ) :
    ∃ G, givenTo C r params "ipopt" a ⟨some (snapshot nlp.state.vars σ), none, none⟩ h = .ok (some G, h') ∧
      (∀ c ∈ G.cons, c.Holds G.start) ∧ G.obj.eval G.start = nlp.obj.eval σ := by
  have hk : Dict.keys ((⟨some (snapshot nlp.state.vars σ), none, none⟩ : StartArgs).initVals.getD []) = Dict.keys nlp.state.vars := snapshot_keys _ _
  obtain ⟨G, hg⟩ := (C65_accepts (k := ⟨some (snapshot nlp.state.vars σ), none, none⟩) (by rw [hk]; exact hn)).2 (by
    intro nv hnv
    obtain ⟨m, hm, rfl⟩ := List.mem_map.1 hnv
    exact ⟨m.2, Dict.get?_of_mem hd hm, rfl, rfl⟩)
  refine ⟨G, hg, C65_restart hC hr s hb hs (solveIpopt_init hn).1 hσ (by rw [Dict.NodupKeys, hk]; exact hd) ?_ hg⟩
  intro n v hv
  refine ⟨.arr v.rows v.cols (σ v.id), ?_, fun i _ j _ => rfl⟩
  show Dict.get? (snapshot nlp.state.vars σ) n = _
  rw [snapshot_get, hv]
  rfl

theorem descent_names : ∃ r h nlp h', runProblem refCAS descentProg Heap.empty = .ok (r, h) ∧
    solveIpopt refCAS r ["eta", "h"] [] (Dict.keys nlp.state.vars) h = .ok (nlp, h') ∧ Solvable r h ∧ nlp.state.vars.NodupKeys ∧
    nlp.state.Sat fun v a b => ((descentSol v a b : ℚ) : ℝ) := by
  obtain ⟨r, h, nlp, h', h1, h2, h3, h4⟩ := descent_feasible
  have hc : (match buildNlp refCAS descentProg ["eta", "h"] [] with
    | .ok x => decide (Dict.keys x.1.state.vars).Nodup && match solveIpopt refCAS x.2.1 ["eta", "h"] [] (Dict.keys x.1.state.vars) x.2.2.1 with
      | .ok _ => true
      | .error _ => false
    | .error _ => false) = true := by decide +kernel
  rw [buildNlp, h1] at hc
  simp only [h2, Bool.and_eq_true, decide_eq_true_eq] at hc
  cases hn : solveIpopt refCAS r ["eta", "h"] [] (Dict.keys nlp.state.vars) h with
  | error e => rw [hn] at hc; exact absurd hc.2 (by simp)
  | ok x =>
    obtain ⟨nlp', h''⟩ := x
    have := (solveIpopt_init hn).1
    rw [h2] at this
    injection this with this
    rw [← this] at hn
    exact ⟨r, h, nlp, h', h1, hn, h3, hc.1, h4⟩

/-- the descent lemma meets all hypotheses of `C65_direct`, `C65_restart`, `C65_accepts` and `C65_same_problem`: restarted from its
solution, Ipopt starts at a feasible point with objective -3/16 -/
example : ∃ r h G h', runProblem refCAS descentProg Heap.empty = .ok (r, h) ∧
    (∃ vals, givenTo refCAS r ["eta", "h"] "ipopt" {} ⟨some vals, none, none⟩ h = .ok (some G, h')) ∧ (∀ c ∈ G.cons, c.Holds G.start) := by
  obtain ⟨r, h, nlp, h', h1, h2, h3, h4, h5⟩ := descent_names
  obtain ⟨G, hg, k1, -⟩ := C65_snapshot (a := {}) refCAS_lawful h1 descentParams_simple (by simp) h3 h4 h2 h5
  exact ⟨r, h, G, h', h1, ⟨_, hg⟩, k1⟩

/-- the QCQP of the descent lemma, started from its solution, with names that are ignored -/
example : ∃ r h, ∃ q : Qcqp, ∃ G h', runProblem refCAS descentProg2 Heap.empty = .ok (r, h) ∧
    givenTo refCAS r descentParams2 "ipopt_qcqp" { bounds := [⟨"gamma_h", some 1, none⟩, ⟨"h", none, some (1 / 8)⟩], extra := 0 }
      ⟨none, some [("h", .num 7), ("lamb", .num 7)], some (.arr q.s.x 1 fun i _ => ((descentVec i : ℚ) : ℝ))⟩ h = .ok (some G, h') ∧
    q.Sat (fun i => G.start 0 i 0) := by
  obtain ⟨r, h, q, h', h1, h2, h3, h4, h5⟩ := descent_qcqp
  have hclean : ∀ i ∈ descentProg2, i.Clean {n | n ∈ descentParams2} := by
    intro i hi
    simp only [descentProg2, List.mem_cons, List.not_mem_nil, or_false] at hi
    rcases hi with rfl | rfl | rfl | rfl | rfl | rfl | rfl <;> simp [Instr.Clean, PE.Clean, EE.Clean, Sym.vars, descentParams2]
  have hg : ∃ G, givenTo refCAS r descentParams2 "ipopt_qcqp" { bounds := [⟨"gamma_h", some 1, none⟩, ⟨"h", none, some (1 / 8)⟩], extra := 0 }
      ⟨none, some [("h", .num 7), ("lamb", .num 7)], some (.arr q.s.x 1 fun i _ => ((descentVec i : ℚ) : ℝ))⟩ h = .ok (some G, h') := by
    obtain ⟨g, h6⟩ : ∃ g, initCa q.s [("h", .num 7), ("lamb", .num 7)] Guess.zero = .ok g := by
      simp only [initCa, vecIndices_get]
      simp only [show ¬("h" : String) = "v" by decide, show ¬("h" : String) = "lamb" by decide, show ¬("h" : String) = "nu" by decide,
        show ¬("h" : String) = "P" by decide, show ¬("h" : String) = "x" by decide, if_false, if_true, show ¬("lamb" : String) = "v" by decide, setInitial]
      exact ⟨_, rfl⟩
    obtain ⟨g', h7⟩ := (setInitial_ok (g := g) (v := 0) (a := 0) (val := .arr q.s.x 1 fun i _ => ((descentVec i : ℚ) : ℝ)) (rows := q.s.x) (cols := 1)).2 ⟨rfl, rfl⟩
    refine ⟨⟨q.cons, q.obj, g'⟩, ?_⟩
    rw [givenTo, if_neg (by decide), if_pos rfl, M.bind_of_ok h2, Option.getD_some, h6, M.bind_of_ok (show M.ofExcept (.ok g) h' = .ok (g, h') from rfl), initX0, h7]
    rfl
  obtain ⟨G, hg⟩ := hg
  exact ⟨r, h, q, G, h', h1, hg, (C65_restart_qcqp refCAS_lawful h1 hclean (by decide) (by decide +kernel) h3 h2 h4 h5 (.inl rfl) hg).2.2.1⟩

end Verif
