import Verif.Props.Total
import Verif.Props.Relax
import Verif.Props.RelaxReport

/-!
# C77: when the other programs can be built
-/

namespace Verif
open Heap

variable {C : CAS} {h h' : Heap} {r : Regs} {prog : List Instr} {params : List Name} {bounds : List Bound} {vb : Option Name} {vals : Dict Name ℚ}

/-- the number of multipliers of a problem: the extra constraints and, for each declared function, the ordered pairs of its samples -/
def multipliers (r : Regs) (h : Heap) : ℕ :=
  r.cons.length + (r.decl.map fun f => match h.fns[f]? with
    | some o => o.points.length * (o.points.length - 1)
    | none => 0).sum

theorem fnKeys_length : ∀ (ns : List ℕ) (k : ℕ), (fnKeys ns k).length = (ns.map fun n => n * (n - 1)).sum
  | [], k => rfl
  | n :: ns, k => by
    rw [fnKeys, List.length_append, List.length_map, length_offDiag, fnKeys_length ns (k + 1), List.map_cons, List.sum_cons]

theorem multipliers_eq (hC : C.Lawful) (hr : runProblem C prog Heap.empty = .ok (r, h)) {sm : SymMats} (t : Translates C h r sm h') :
    sm.nI + sm.nE = multipliers r h := by
  have hc := length_cons r.cons
  have hl := decl_eq_leafFnIds (reached_inv hC hr)
  rw [multipliers, t.nI, t.nE, fnKeys_length, hc, ← hl, List.map_map]
  have : (leafFnIds h).map ((fun n => n * (n - 1)) ∘ nSamples h) = (leafFnIds h).map fun f => match h.fns[f]? with
      | some o => o.points.length * (o.points.length - 1)
      | none => 0 := by
    refine List.map_congr_left fun f hf => ?_
    obtain ⟨o, ho⟩ := leafFnIds_fn hf
    simp only [Function.comp, nSamples, ho]
  rw [this]
  omega

/-- the matrices and the coefficient arrays -/
theorem data_iff (hC : C.Lawful) (hr : runProblem C prog Heap.empty = .ok (r, h)) (hclean : ∀ i ∈ prog, i.Clean {n | n ∈ params})
    (hp : params.Nodup) (hpl : ∀ n ∈ params, Plain n) (hok : ∀ d ∈ decls prog, d.Ok) :
    (∃ sm h' q, problemMatrices C r h = .ok (sm, h') ∧ qData C sm h.ptCounter h.exCounter params = .ok q ∧ sm.nI + sm.nE = multipliers r h ∧
        q.s.nI + q.s.nE = multipliers r h ∧ TableClosed params q.tab.names) ↔
      (∃ e, Instr.metric e ∈ prog) ∧ (∀ f ∈ r.decl, ∀ o, h.fns[f]? = some o → o.points.Nodup) ∧ 1 ≤ multipliers r h := by
  constructor
  · rintro ⟨sm, h', q, h1, h2, h3, -⟩
    have hs := solvable_of_ok hC hr hok h1
    have := qData_nonempty h2
    exact ⟨(runProblem_metric hr).1 (problemMatrices_metric hC hr h1), fun f hf o ho => (hs f hf o ho).2, by omega⟩
  · rintro ⟨hmet, hdup, hcon⟩
    have hs : Solvable r h := solvable_of_decls hC hr hok hdup
    obtain ⟨sm, h', h1, t⟩ := translate_ok hC hr hs ((runProblem_metric hr).2 hmet)
    have hc := qcqp_clean hC hr hclean h1
    obtain ⟨ents, obj, pr⟩ := t.prepared
    have hm := multipliers_eq hC hr t
    have hv : ∀ km ∈ sm.spExp, ∀ n, km.2.Occurs n → n ∈ params := fun en hen n hn => t.occurs hc en hen n hn
    obtain ⟨q, hq⟩ := qData_ok (dimG := h.ptCounter) (dimF := h.exCounter) hC hp hpl hv pr (by omega)
    obtain ⟨cs, co, fr⟩ := qData_inv hq
    refine ⟨sm, h', q, h1, hq, hm, by rw [fr.s]; exact hm, ?_⟩
    refine coeffLoop_closed hC hpl _ (VTab.init_ok hp) List.prefix_rfl (fun m hm n hn => ?_) TableClosed.init fr.coeff
    obtain ⟨km, hk, rfl⟩ := List.mem_map.1 hm
    exact hv km hk n hn

theorem evalMonomial_total {n : VName} (hn : ∀ s, n = .str s → ∀ v ∈ splitU s, ∃ c, vals.get? v = some c) : ∃ c, evalMonomial vals n = .ok c := by
  cases n with
  | one => exact ⟨_, rfl⟩
  | str s =>
    have key : ∀ (l : List Name) (a : ℚ), (∀ v ∈ l, ∃ c, vals.get? v = some c) → ∃ c, l.foldlM (fun acc v => match vals.get? v with
        | some x => .ok (acc * x)
        | none => .error .key) a = (.ok c : Except Err ℚ) := by
      intro l
      induction l with
      | nil => exact fun a _ => ⟨a, rfl⟩
      | cons v l ih =>
        intro a hl
        obtain ⟨c, hc⟩ := hl v (by simp)
        obtain ⟨d, hd⟩ := ih (a * c) fun w hw => hl w (by simp [hw])
        refine ⟨d, ?_⟩
        rw [List.foldlM_cons]
        simp only [hc]
        exact hd
    exact key _ 1 (hn s rfl)

theorem varsToVector_total : ∀ (names : List VName), (∀ n ∈ names, ∃ c, evalMonomial vals n = .ok c) → ∃ v, varsToVector names vals = .ok v
  | [], _ => ⟨_, rfl⟩
  | n :: names, hn => by
    obtain ⟨c, hc⟩ := hn n (by simp)
    obtain ⟨v, hv⟩ := varsToVector_total names fun m hm => hn m (by simp [hm])
    exact ⟨c :: v, by rw [varsToVector, hc]; simp only [bind, Except.bind]; rw [hv]⟩

theorem vector_total {q : QData} (hpl : ∀ n ∈ params, Plain n) (hcl : TableClosed params q.tab.names) (hk : vals.keys.Perm params) :
    ∃ v, varsToVector q.tab.names vals = .ok v := by
  have hget : ∀ n ∈ params, ∃ c, vals.get? n = some c := fun n hn => by
    have : n ∈ vals.keys := hk.mem_iff.2 hn
    obtain ⟨kv, h1, rfl⟩ := List.mem_map.1 this
    exact Option.isSome_iff_exists.1 (by
      rw [← Dict.has]
      exact (Dict.has_iff _ _).2 this)
  refine varsToVector_total _ fun n hn => evalMonomial_total fun s hs v hv => ?_
  subst hs
  rcases hcl s hn with hs | ⟨l, a, -, h1, h2, -⟩
  · rw [splitU_plain (hpl s hs), List.mem_singleton] at hv
    subst hv
    exact hget _ hs
  · rw [h1] at hv
    exact hget _ (h2 v hv)

/-- **C77, fixed parameters.** Let a script run without error, use only the symbols `params`, distinct and without underscore, and declare
sensible classes.  Then `solve_fix_discr_sdp` builds its semidefinite program without error iff the dictionary has exactly the parameters
as keys, the script sets a metric, no function has the same sample recorded twice, and there are at least two multipliers. -/
theorem C77_fixed (hC : C.Lawful) (hr : runProblem C prog Heap.empty = .ok (r, h)) (hclean : ∀ i ∈ prog, i.Clean {n | n ∈ params})
    (hp : params.Nodup) (hpl : ∀ n ∈ params, Plain n) (hok : ∀ d ∈ decls prog, d.Ok) :
    (∃ S h', solveFixedSdp C r params vals h = .ok (S, h')) ↔ vals.keys.Perm params ∧ (∃ e, Instr.metric e ∈ prog) ∧
      (∀ f ∈ r.decl, ∀ o, h.fns[f]? = some o → o.points.Nodup) ∧ 2 ≤ multipliers r h := by
  constructor
  · rintro ⟨S, h', hS⟩
    obtain ⟨sm, q, hk, h1, h2, h3⟩ := solveFixedSdp_inv hS
    have hs := solvable_of_ok hC hr hok h1
    have hm := multipliers_eq hC hr (translate_of hC hr hs h1)
    have hne := qData_nonempty h2
    obtain ⟨cs, co, fr⟩ := qData_inv h2
    have hq : q.s.nI + q.s.nE = multipliers r h := by rw [fr.s]; exact hm
    rw [fixedSdpWith] at h3
    obtain ⟨v, -, h3⟩ := Except.bind_ok_iff.1 h3
    split at h3
    · cases h3
    · exact ⟨hk, (runProblem_metric hr).1 (problemMatrices_metric hC hr h1), fun f hf o ho => (hs f hf o ho).2, by omega⟩
  · rintro ⟨hk, hmet, hdup, h2⟩
    obtain ⟨sm, h', q, h1, hq, -, hn, hcl⟩ := (data_iff hC hr hclean hp hpl hok).2 ⟨hmet, hdup, by omega⟩
    obtain ⟨v, hv⟩ := vector_total hpl hcl hk
    have hS : ∃ S, fixedSdp C sm h.ptCounter h.exCounter params vals = .ok S := by
      rw [fixedSdp, hq]
      simp only [bind, Except.bind]
      rw [fixedSdpWith, hv]
      simp only [bind, Except.bind]
      rw [if_neg (by omega)]
      exact ⟨_, rfl⟩
    obtain ⟨S, hS⟩ := hS
    refine ⟨S, h', ?_⟩
    rw [solveFixedSdp, M.bind_of_ok (show M.get h = .ok (h, h) from rfl), M.bind_of_ok (show M.assert _ h = .ok ((), h) by rw [M.assert, if_pos (by simpa using hk)]; rfl),
      M.bind_of_ok h1, hS]
    rfl

/-- **C77, the halving search** returns exactly if the dictionary has the parameters as keys, the script sets a metric and no function has
the same sample recorded twice.  With fewer than two multipliers no semidefinite program can be built, but the search does not raise:
whatever the solver, it returns the starting value divided by `2 ^ maxIters` after all its iterations. -/
theorem C77_bisection (hC : C.Lawful) (hr : runProblem C prog Heap.empty = .ok (r, h)) (hclean : ∀ i ∈ prog, i.Clean {n | n ∈ params})
    (hp : params.Nodup) (hpl : ∀ n ∈ params, Plain n) (hok : ∀ d ∈ decls prog, d.Ok) (run : ℕ → Sdp → SolveOutcome) (maxIters : ℕ) :
    ((∃ res h', solveBisection C r params vals maxIters run h = .ok (res, h')) ↔ vals.keys.Perm params ∧ (∃ e, Instr.metric e ∈ prog) ∧
      ∀ f ∈ r.decl, ∀ o, h.fns[f]? = some o → o.points.Nodup) ∧
    ∀ res h', solveBisection C r params vals maxIters run h = .ok (res, h') → multipliers r h < 2 →
      res.2 = (match vals.get? "eta" with | some e => e | none => 10) / 2 ^ maxIters := by
  have inv : ∀ {res h'}, solveBisection C r params vals maxIters run h = .ok (res, h') → vals.keys.Perm params ∧
      ∃ sm tc, problemMatrices C r h = .ok (sm, h') ∧ spCoeffMatrix C sm.spExp params h.ptCounter h.exCounter = .ok tc ∧
        res = bisectEta (fun t ps => match solveBisection.fixedSdpWithInputs C params sm h.ptCounter h.exCounter ps with
          | .ok s => run t s
          | .error _ => .raised) maxIters vals := by
    intro res h' hs
    rw [solveBisection] at hs
    obtain ⟨h0, h1, h2, hs⟩ := M.bind_ok_iff.1 hs
    injection h2 with h2
    simp only [Prod.mk.injEq] at h2
    obtain ⟨rfl, rfl⟩ := h2
    obtain ⟨u, h2, h3, hs⟩ := M.bind_ok_iff.1 hs
    have hk : vals.keys.Perm params ∧ h2 = h := by
      rw [M.assert] at h3
      split at h3
      · rename_i hd
        injection h3 with h3
        simp only [Prod.mk.injEq] at h3
        exact ⟨by simpa using hd, h3.2.symm⟩
      · cases h3
    obtain ⟨hk, rfl⟩ := hk
    obtain ⟨sm, h4, h5, hs⟩ := M.bind_ok_iff.1 hs
    cases hsp : spCoeffMatrix C sm.spExp params h2.ptCounter h2.exCounter with
    | error e => simp only [hsp] at hs; cases hs
    | ok tc =>
      simp only [hsp] at hs
      injection hs with hs
      simp only [Prod.mk.injEq] at hs
      obtain ⟨rfl, rfl⟩ := hs
      exact ⟨hk, sm, tc, h5, hsp, rfl⟩
  refine ⟨⟨?_, ?_⟩, ?_⟩
  · rintro ⟨res, h', hs⟩
    obtain ⟨hk, sm, tc, h1, -⟩ := inv hs
    exact ⟨hk, (runProblem_metric hr).1 (problemMatrices_metric hC hr h1), fun f hf o ho => (solvable_of_ok hC hr hok h1 f hf o ho).2⟩
  · rintro ⟨hk, hmet, hdup⟩
    have hs : Solvable r h := solvable_of_decls hC hr hok hdup
    obtain ⟨sm, h', h1, t⟩ := translate_ok hC hr hs ((runProblem_metric hr).2 hmet)
    have hc := qcqp_clean hC hr hclean h1
    have hv : ∀ km ∈ sm.spExp, ∀ n, km.2.Occurs n → n ∈ params := fun en hen n hn => t.occurs hc en hen n hn
    obtain ⟨tc, htc⟩ := C18_ok (dimG := h.ptCounter) (dimF := h.exCounter) hC hp hpl hv
    refine ⟨bisectEta (fun t ps => match solveBisection.fixedSdpWithInputs C params sm h.ptCounter h.exCounter ps with
      | .ok s => run t s
      | .error _ => .raised) maxIters vals, h', ?_⟩
    rw [solveBisection, M.bind_of_ok (show M.get h = .ok (h, h) from rfl), M.bind_of_ok (show M.assert _ h = .ok ((), h) by rw [M.assert, if_pos (by simpa using hk)]; rfl),
      M.bind_of_ok h1, htc]
    rfl
  · intro res h' hs hlt
    obtain ⟨hk, sm, tc, h1, -, rfl⟩ := inv hs
    have hm := multipliers_eq hC hr (translate_of hC hr (solvable_of_ok hC hr hok h1) h1)
    have hraise : ∀ ps, ∃ e, solveBisection.fixedSdpWithInputs C params sm h.ptCounter h.exCounter ps = .error e := by
      intro ps
      cases hx : solveBisection.fixedSdpWithInputs C params sm h.ptCounter h.exCounter ps with
      | error e => exact ⟨e, rfl⟩
      | ok S =>
        rw [solveBisection.fixedSdpWithInputs] at hx
        obtain ⟨q, h2, hx⟩ := Except.bind_ok_iff.1 hx
        have hne := qData_nonempty h2
        obtain ⟨cs, co, fr⟩ := qData_inv h2
        have hq : q.s.nI + q.s.nE = multipliers r h := by rw [fr.s]; exact hm
        rw [fixedSdpWith] at hx
        obtain ⟨v, -, hx⟩ := Except.bind_ok_iff.1 hx
        rw [if_pos (by omega)] at hx
        cases hx
    have loop : ∀ n t ps (eta : ℚ), (bisectLoop (fun t ps => match solveBisection.fixedSdpWithInputs C params sm h.ptCounter h.exCounter ps with
          | .ok s => run t s
          | .error _ => .raised) n t ps eta).2 = eta / 2 ^ n := by
      intro n
      induction n with
      | zero => intro t ps eta; simp [bisectLoop]
      | succ n ih =>
        intro t ps eta
        obtain ⟨e, he⟩ := hraise (ps.set "eta" eta)
        rw [bisectLoop]
        simp only [he]
        rw [ih, pow_succ']
        field_simp
    exact loop _ _ _ _

/-- **C77, the relaxation.** Let moreover the goal be a parameter.  Then `solve_sdp_relax` builds its program without error iff `var_bound` is not
given, `eta`, `h`, `rho`, `alpha`, `beta` are parameters, the script sets a metric, no function has the same sample recorded twice, and
there is a multiplier. -/
theorem C77_relax (hC : C.Lawful) (hr : runProblem C prog Heap.empty = .ok (r, h)) (hclean : ∀ i ∈ prog, i.Clean {n | n ∈ params})
    (hp : params.Nodup) (hpl : ∀ n ∈ params, Plain n) (hok : ∀ d ∈ decls prog, d.Ok) {g : Name} (hgoal : goalOf prog = Sym.var g) (hg : g ∈ params) :
    (∃ S h', solveRelaxSdp C r params bounds vb h = .ok (S, h')) ↔ vb = none ∧ (∀ n ∈ ["eta", "h", "rho", "alpha", "beta"], n ∈ params) ∧
      (∃ e, Instr.metric e ∈ prog) ∧ (∀ f ∈ r.decl, ∀ o, h.fns[f]? = some o → o.points.Nodup) ∧ 1 ≤ multipliers r h := by
  constructor
  · rintro ⟨S, h', hS⟩
    obtain ⟨sm, h1, hS⟩ := solveRelaxSdp_inv hS
    obtain ⟨q, sc, prods, eta, hvb, h2, hsc, -⟩ := relaxSdp_inv hS
    have hs := solvable_of_ok hC hr hok h1
    have t := translate_of hC hr hs h1
    have hm := multipliers_eq hC hr t
    have hne := qData_nonempty h2
    have hc := qcqp_clean hC hr hclean h1
    obtain ⟨cs, co, fr⟩ := qData_inv h2
    obtain ⟨o, -, -⟩ := qData_table hC hp h2
    have hcl : TableClosed params q.tab.names := by
      refine coeffLoop_closed hC hpl _ (VTab.init_ok hp) List.prefix_rfl (fun m hm n hn => ?_) TableClosed.init fr.coeff
      obtain ⟨km, hk, rfl⟩ := List.mem_map.1 hm
      exact t.occurs hc km hk n hn
    have hin : ∀ {n i}, Plain n → q.tab.lookup n = .ok i → n ∈ params := by
      intro n i hn hi
      rcases hcl n (List.mem_of_getElem? (o.lookup.1 hi)) with h3 | ⟨l, a, hl, h3, -⟩
      · exact h3
      · rw [splitU_plain hn] at h3
        have := congrArg List.length h3
        simp at this
        exact absurd this hl
    obtain ⟨i1, i2, i3, i4, i5, l1, l2, l3, l4, l5, -⟩ := relaxScalars_ok hsc
    refine ⟨hvb, ?_, (runProblem_metric hr).1 (problemMatrices_metric hC hr h1), fun f hf o ho => (hs f hf o ho).2, by omega⟩
    intro n hn
    simp only [List.mem_cons, List.not_mem_nil, or_false] at hn
    rcases hn with rfl | rfl | rfl | rfl | rfl
    · exact hin (by decide) l1
    · exact hin (by decide) l2
    · exact hin (by decide) l3
    · exact hin (by decide) l4
    · exact hin (by decide) l5
  · rintro ⟨rfl, hfive, hmet, hdup, hcon⟩
    obtain ⟨sm, h', q, h1, hq, -, -, hcl⟩ := (data_iff hC hr hclean hp hpl hok).2 ⟨hmet, hdup, hcon⟩
    obtain ⟨o, pre, -⟩ := qData_table hC hp hq
    have hlook : ∀ s ∈ params, ∃ i, q.tab.lookup s = .ok i := fun s hs => ⟨_, lookup_param hC hp hq (List.getElem?_idxOf hs)⟩
    obtain ⟨pc, hpc⟩ := productCons_total (mk := q.relaxProd) _ (productIdx_total o hpl pre hcl)
    obtain ⟨e, he⟩ := tabExpr_var hC (hpl g hg) (hlook g hg)
    obtain ⟨i1, l1⟩ := hlook "eta" (hfive _ (by simp))
    obtain ⟨i2, l2⟩ := hlook "h" (hfive _ (by simp))
    obtain ⟨i3, l3⟩ := hlook "rho" (hfive _ (by simp))
    obtain ⟨i4, l4⟩ := hlook "alpha" (hfive _ (by simp))
    obtain ⟨i5, l5⟩ := hlook "beta" (hfive _ (by simp))
    have hS : ∃ S, relaxSdp C sm h.ptCounter h.exCounter params bounds none r.obj = .ok S := by
      rw [runProblem_obj hr, hgoal, relaxSdp, hq]
      simp only [bind, Except.bind, relaxScalars, l1, l2, l3, l4, l5, hpc, if_true, he]
      exact ⟨_, rfl⟩
    obtain ⟨S, hS⟩ := hS
    refine ⟨S, h', ?_⟩
    rw [solveRelaxSdp, M.bind_of_ok (show M.get h = .ok (h, h) from rfl), M.bind_of_ok h1, hS]
    rfl

/-- **C77, the matrix QCQP.** Let moreover `params` contain with each `inv` + `v` also `v`, and the names in the bounds.  Then
`solve_ipopt_qcqp_matrix` builds its program without error iff the script sets a metric, no function has the same sample recorded twice,
and there is a multiplier; no parameter has to be present. -/
theorem C77_matrix (hC : C.Lawful) (hr : runProblem C prog Heap.empty = .ok (r, h)) (hclean : ∀ i ∈ prog, i.Clean {n | n ∈ params})
    (hp : params.Nodup) (hpl : ∀ n ∈ params, Plain n) (hok : ∀ d ∈ decls prog, d.Ok) {g : Name} (hgoal : goalOf prog = Sym.var g) (hg : g ∈ params)
    (hb : ∀ b ∈ bounds, b.name ∈ params) (hin : ∀ v ∈ invParams params, v ∈ params ∧ "inv" ++ v ∈ params) :
    (∃ q h', solveQcqpMatrix C r params bounds h = .ok (q, h')) ↔
      (∃ e, Instr.metric e ∈ prog) ∧ (∀ f ∈ r.decl, ∀ o, h.fns[f]? = some o → o.points.Nodup) ∧ 1 ≤ multipliers r h := by
  constructor
  · rintro ⟨q, h', hS⟩
    rw [solveQcqpMatrix] at hS
    obtain ⟨h0, h1, h2, hS⟩ := M.bind_ok_iff.1 hS
    injection h2 with h2
    simp only [Prod.mk.injEq] at h2
    obtain ⟨rfl, rfl⟩ := h2
    obtain ⟨sm, h2, h3, hS⟩ := M.bind_ok_iff.1 hS
    cases hx : qcqpMatrixNlp C sm h.ptCounter h.exCounter params bounds r.obj with
    | error e => simp only [hx] at hS; cases hS
    | ok x =>
      rw [qcqpMatrixNlp] at hx
      obtain ⟨d, h4, -⟩ := Except.bind_ok_iff.1 hx
      have hs := solvable_of_ok hC hr hok h3
      have hm := multipliers_eq hC hr (translate_of hC hr hs h3)
      have hne := qData_nonempty h4
      exact ⟨(runProblem_metric hr).1 (problemMatrices_metric hC hr h3), fun f hf o ho => (hs f hf o ho).2, by omega⟩
  · intro hcond
    obtain ⟨sm, h', q, h1, hq, -, -, hcl⟩ := (data_iff hC hr hclean hp hpl hok).2 hcond
    obtain ⟨o, pre, -⟩ := qData_table hC hp hq
    have hlook : ∀ s ∈ params, ∃ i, q.tab.lookup s = .ok i := fun s hs => ⟨_, lookup_param hC hp hq (List.getElem?_idxOf hs)⟩
    obtain ⟨pc, hpc⟩ := productCons_total (mk := q.productConM) _ (productIdx_total o hpl pre hcl)
    obtain ⟨ic, hic⟩ := invCons_total (mk := q.invConM) (invParams params) fun n hn => ⟨hlook _ (hin n hn).1, hlook _ (hin n hn).2⟩
    obtain ⟨bs, hbs⟩ := addBounds_ok (look := qLook q.tab q.s.x) bounds none (by
      intro b hbb
      rw [qLook]
      split
      · exact ⟨_, rfl⟩
      · obtain ⟨i, hi⟩ := hlook _ (hb b hbb)
        rw [lookup_ok.1 hi]
        exact ⟨_, rfl⟩)
    obtain ⟨e, he⟩ := tabExpr_var hC (hpl g hg) (hlook g hg)
    have hS : ∃ S, qcqpMatrixNlp C sm h.ptCounter h.exCounter params bounds r.obj = .ok S := by
      rw [runProblem_obj hr, hgoal, qcqpMatrixNlp, hq]
      simp only [bind, Except.bind, hpc, hic, hbs, he]
      exact ⟨_, rfl⟩
    obtain ⟨S, hS⟩ := hS
    refine ⟨S, h', ?_⟩
    rw [solveQcqpMatrix, M.bind_of_ok (show M.get h = .ok (h, h) from rfl), M.bind_of_ok h1, hS]
    rfl

/-- the descent lemma meets the hypotheses and the conditions of all four theorems -/
example : ∃ r h, runProblem refCAS descentProg Heap.empty = .ok (r, h) ∧ multipliers r h = 2 ∧
    (∃ S h', solveFixedSdp refCAS r ["eta", "h"] [("h", 1), ("eta", 1 / 2)] h = .ok (S, h')) ∧
    (∀ run, ∃ x h', solveBisection refCAS r ["eta", "h"] [("h", 1), ("eta", 1 / 2)] 30 run h = .ok (x, h')) ∧
    (∃ q h', solveQcqpMatrix refCAS r ["eta", "h"] [⟨"eta", some 1, some 0⟩] h = .ok (q, h')) ∧
    ∃ S h', solveRelaxSdp refCAS r ["alpha", "beta", "eta", "h", "rho"] [] none h = .ok (S, h') := by
  obtain ⟨r, h, -, -, h1, -, h3, -⟩ := descent_feasible
  have h2 : ∃ e, Instr.metric e ∈ descentProg := ⟨2, by simp [descentProg]⟩
  have h4 : ∀ f ∈ r.decl, ∀ o, h.fns[f]? = some o → o.points.Nodup := fun f hf o ho => (h3 f hf o ho).2
  have hm : multipliers r h = 2 := by
    have hk : (match runProblem refCAS descentProg Heap.empty with
      | .ok (r, h) => decide (multipliers r h = 2)
      | .error _ => false) = true := by decide +kernel
    rw [h1] at hk
    exact of_decide_eq_true hk
  have hg : goalOf descentProg = Sym.var "eta" := rfl
  have hcl : ∀ i ∈ descentProg, i.Clean {n | n ∈ ["alpha", "beta", "eta", "h", "rho"]} := by
    intro i hi
    simp only [descentProg, List.mem_cons, List.not_mem_nil, or_false] at hi
    rcases hi with rfl | rfl | rfl | rfl | rfl | rfl | rfl <;> simp [Instr.Clean, PE.Clean, EE.Clean, Sym.vars]
  exact ⟨r, h, h1, hm,
    (C77_fixed refCAS_lawful h1 descentProg_clean (by decide +kernel) (by decide +kernel) descentProg_decls).2 ⟨by decide +kernel, h2, h4, by omega⟩,
    fun run => (C77_bisection refCAS_lawful h1 descentProg_clean (by decide +kernel) (by decide +kernel) descentProg_decls run 30).1.2 ⟨by decide +kernel, h2, h4⟩,
    (C77_matrix refCAS_lawful h1 descentProg_clean (by decide +kernel) (by decide +kernel) descentProg_decls hg (by decide +kernel) (by decide +kernel) (by decide +kernel)).2 ⟨h2, h4, by omega⟩,
    (C77_relax refCAS_lawful h1 hcl (by decide +kernel) (by decide +kernel) descentProg_decls hg (by decide +kernel)).2 ⟨rfl, by decide +kernel, h2, h4, by omega⟩⟩

/-- **C77**, finding: on a script with one function, one sample and no extra constraint `solve_fix_discr_sdp` raises an error, and
`solve_bisection_eta` with the same dictionary returns `eta / 2 ^ maxIters`, whatever the solver does. -/
theorem C77_bisection_silent (run : ℕ → Sdp → SolveOutcome) (maxIters : ℕ) : ∃ r h, runProblem refCAS lonelyProg Heap.empty = .ok (r, h) ∧
    (¬∃ x, solveFixedSdp refCAS r ["eta"] [("eta", 1)] h = .ok x) ∧
    ∃ res h', solveBisection refCAS r ["eta"] [("eta", 1)] maxIters run h = .ok (res, h') ∧ res.2 = 1 / 2 ^ maxIters := by
  have hk : (match runProblem refCAS lonelyProg Heap.empty with
    | .ok (r, h) => decide (multipliers r h = 0) && decide (∀ f ∈ r.decl, ∀ o ∈ h.fns[f]?, o.points.Nodup)
    | .error _ => false) = true := by decide +kernel
  split at hk
  · rename_i r h hr
    simp only [Bool.and_eq_true, decide_eq_true_eq] at hk
    have hcl : ∀ i ∈ lonelyProg, i.Clean {n | n ∈ ["eta"]} := by simp [lonelyProg, Instr.Clean]
    have hok : ∀ d ∈ decls lonelyProg, d.Ok := by simp [lonelyProg, decls, FnDecl.Ok]
    have hb := C77_bisection (vals := [("eta", 1)]) refCAS_lawful hr hcl (by decide +kernel) (by decide +kernel) hok run maxIters
    obtain ⟨res, h', h1⟩ := hb.1.2 ⟨by decide +kernel, ⟨0, by simp [lonelyProg]⟩, fun f hf o ho => hk.2 f hf o ho⟩
    refine ⟨r, h, hr, ?_, res, h', h1, hb.2 res h' h1 (by omega)⟩
    rintro ⟨⟨S, h''⟩, hx⟩
    have := ((C77_fixed refCAS_lawful hr hcl (by decide +kernel) (by decide +kernel) hok).1 ⟨S, h'', hx⟩).2.2.2
    omega
  · cases hk

end Verif
