import Verif.Model.Dispatch
import Verif.Props.NlpIff

/-!
# C37: solver dispatch, result shape, and what the returned numbers certify
-/

namespace Verif
open Heap

variable {C : CAS} {X : External} {h h' h0 : Heap} {r : Regs} {prog : List Instr} {params : List Name} {a : SolveArgs} {res : SolveResult}

/-- the names `solve` knows -/
def solverNames : List String := ["ipopt", "ipopt_qcqp", "ipopt_qcqp_matrix", "fix_discr_sdp", "bisection_eta"]

/-- **C37.** An unknown solver name returns `None`, without error, without calling any solver and without changing anything. -/
theorem C37_unknown {s : String} (hs : s ∉ solverNames) (h : Heap) : solve C X r params s a h = .ok (.nothing, h) := by
  simp only [solverNames, List.mem_cons, List.not_mem_nil, or_false, not_or] at hs
  obtain ⟨h1, h2, h3, h4, h5⟩ := hs
  rw [solve, if_neg h1, if_neg h2, if_neg h3, if_neg h4, if_neg h5]
  rfl

/-- the relaxation and the Gurobi formulation are not reachable through `solve` -/
example : "sdp_relax" ∉ solverNames ∧ "gp" ∉ solverNames ∧ "IPOPT" ∉ solverNames ∧ "" ∉ solverNames := by decide

/-- **C37.** A known solver name never returns `None`. -/
theorem C37_known {s : String} (hs : s ∈ solverNames) (hres : solve C X r params s a h = .ok (res, h')) : res ≠ .nothing := by
  have key : ∀ (x : M SolveResult), x h = .ok (res, h') → (∀ r1 g g', x g = .ok (r1, g') → r1 ≠ .nothing) → res ≠ .nothing := fun x hx hn => hn _ _ _ hx
  have hrep : ∀ look keys o r1 g g', nlpReport look keys o g = .ok (r1, g') → r1 ≠ .nothing := by
    intro look keys o r1 g g' hh
    cases o with
    | raised => cases hh; simp
    | returned b sol =>
      rw [nlpReport] at hh
      cases b with
      | false => cases hh
      | true => cases hh; simp
  simp only [solverNames, List.mem_cons, List.not_mem_nil, or_false] at hs
  rcases hs with rfl | rfl | rfl | rfl | rfl <;> rw [solve] at hres
  · rw [if_pos rfl] at hres
    obtain ⟨nlp, g, -, hh⟩ := M.bind_ok_iff.1 hres
    exact hrep _ _ _ _ _ _ hh
  · rw [if_neg (by decide), if_pos rfl] at hres
    obtain ⟨nlp, g, -, hh⟩ := M.bind_ok_iff.1 hres
    exact hrep _ _ _ _ _ _ hh
  · rw [if_neg (by decide), if_neg (by decide), if_pos rfl] at hres
    obtain ⟨nlp, g, -, hh⟩ := M.bind_ok_iff.1 hres
    exact hrep _ _ _ _ _ _ hh
  · rw [if_neg (by decide), if_neg (by decide), if_neg (by decide), if_pos rfl] at hres
    obtain ⟨S, g, -, hh⟩ := M.bind_ok_iff.1 hres
    revert hh
    cases X.sdp 0 S with
    | raised => intro hh; cases hh
    | status s sol => intro hh; cases hh; simp
  · rw [if_neg (by decide), if_neg (by decide), if_neg (by decide), if_neg (by decide), if_pos rfl] at hres
    obtain ⟨S, g, -, hh⟩ := M.bind_ok_iff.1 hres
    cases hh; simp

theorem dictParameters_spec {look : Name → Option (List CExp)} {val : Name → List CExp} {keys : List Name} (hk : keys.Nodup)
    (hl : ∀ n ∈ keys, look n = some (val n)) (sol : ℕ → ℕ → ℕ → ℝ) :
    dictParameters look keys sol = keys.map fun n => (n, (val n).map fun x => x.eval sol) := by
  have key : ∀ (l : List Name) (d : Dict Name (List ℝ)), (d.keys ++ l).Nodup → (∀ n ∈ l, look n = some (val n)) →
      l.foldl (reportStep look sol) d = d ++ l.map fun n => (n, (val n).map fun x => x.eval sol) := by
    intro l
    induction l with
    | nil => intro d _ _; simp
    | cons n l ih =>
      intro d hd hl
      have hn : n ∉ d.keys := by
        intro hn
        exact (List.disjoint_of_nodup_append hd) hn (List.mem_cons_self ..)
      have hstep : reportStep look sol d n = d ++ [(n, (val n).map fun x => x.eval sol)] := by
        rw [reportStep, hl n (List.mem_cons_self ..)]
        simp only
        rw [Dict.set, if_neg (by rw [Dict.has_iff]; exact hn)]
      rw [List.foldl_cons, hstep, ih]
      · simp
      · rw [Dict.keys_append]
        simpa using hd
      · exact fun m hm => hl m (List.mem_cons_of_mem _ hm)
  have := key keys [] (by simpa using hk) hl
  rw [dictParameters, this, List.nil_append]

/-- **C37.** The reported dictionary: a requested name that is the name of a solver variable is mapped to the values of its entries; every
other name is absent. -/
theorem C37_report (look : Name → Option (List CExp)) (keys : List Name) (sol : ℕ → ℕ → ℕ → ℝ) (n : Name) :
    (dictParameters look keys sol).get? n = if n ∈ keys then (look n).map fun xs => xs.map fun x => x.eval sol else none := by
  have key : ∀ (l : List Name) (d : Dict Name (List ℝ)), (l.foldl (reportStep look sol) d).get? n =
      if n ∈ l ∧ look n ≠ none then (look n).map fun xs => xs.map fun x => x.eval sol else d.get? n := by
    intro l
    induction l with
    | nil => intro d; simp
    | cons m l ih =>
      intro d
      rw [List.foldl_cons, ih]
      by_cases hl : n ∈ l ∧ look n ≠ none
      · rw [if_pos hl, if_pos ⟨List.mem_cons_of_mem _ hl.1, hl.2⟩]
      · rw [if_neg hl]
        by_cases hm : n = m
        · subst hm
          cases hx : look n with
          | none => simp [reportStep, hx]
          | some xs => simp [reportStep, hx, Dict.get?_set]
        · have hstep : (reportStep look sol d m).get? n = d.get? n := by
            rw [reportStep]
            split
            · rw [Dict.get?_set, if_neg hm]
            · rfl
          rw [hstep, if_neg]
          rintro ⟨h1, h2⟩
          exact hl ⟨(List.mem_cons.1 h1).resolve_left hm, h2⟩
  rw [dictParameters, key]
  by_cases hn : n ∈ keys
  · cases hx : look n <;> simp [hn, Dict.get?]
  · simp [hn, Dict.get?]

/-- a request for `eta` and an unknown name: only `eta` is reported -/
example : (dictParameters (fun n => if n = "eta" then some [.var 0 0 0] else none) ["zeta", "eta"] fun _ _ _ => 7).get? "eta" = some [7] ∧
    (dictParameters (fun n => if n = "eta" then some [.var 0 0 0] else none) ["zeta", "eta"] fun _ _ _ => 7).get? "zeta" = none := by
  constructor <;> rw [C37_report] <;> simp [CExp.eval]

theorem get?_map_mem {β : Type} {keys : List Name} {f : Name → β} {n : Name} (hn : n ∈ keys) :
    Dict.get? (keys.map fun n => (n, f n)) n = some (f n) := by
  induction keys with
  | nil => exact (List.not_mem_nil hn).elim
  | cons m l ih =>
    rw [List.map_cons, Dict.get?_cons]
    by_cases hm : m = n
    · subst hm; simp
    · rw [if_neg hm]
      exact ih ((List.mem_cons.1 hn).resolve_left fun e => hm e.symm)

theorem nlpReport_cases {look : Name → Option (List CExp)} {keys : List Name} {o : NlpOutcome} {g : Heap}
    (hh : nlpReport look keys o g = .ok (res, h')) : g = h' ∧ (o = .raised ∧ res = .failed ∨
      ∃ sol, o = .returned true sol ∧ res = .solved (dictParameters look keys sol)) := by
  cases o with
  | raised => cases hh; exact ⟨rfl, Or.inl ⟨rfl, rfl⟩⟩
  | returned b sol =>
    rw [nlpReport] at hh
    cases b with
    | false => cases hh
    | true => cases hh; exact ⟨rfl, Or.inr ⟨sol, rfl, rfl⟩⟩

theorem ipopt_scalars (hC : C.Lawful) (hr : runProblem C prog Heap.empty = .ok (r, h)) (hclean : ∀ i ∈ prog, i.Clean {n | n ∈ params})
    (s : SimpleParams params) {bounds : List Bound} {init : List Name} {nlp : Nlp} (hb : ∀ b ∈ bounds, b.name ∈ scalarNames params) (hs : Solvable r h)
    (hn : solveIpopt C r params bounds init h = .ok (nlp, h')) : ∀ n ∈ scalarNames params, IsScalar nlp.state n := by
  obtain ⟨sm, h1, h2⟩ := solveIpopt_inv hn
  have t := translate_of hC hr hs h1
  have hc := qcqp_clean hC hr hclean h1
  rw [t.nSamples_eq fun f hf => leafFnIds_fn hf] at h2
  have hocc : ∀ en ∈ sm.spExp, ∀ n, en.2.Occurs n → n ∈ params := fun en hen n hn => t.occurs hc en hen n hn
  have hpl : ∀ n ∈ params, Plain n := fun n hn => (s.names n (List.mem_append_left _ hn)).1
  have hnd : ∀ n ∈ params, ¬ IsDual n := fun n hn => (s.names n (List.mem_append_left _ hn)).2.1
  obtain ⟨st, pid, p, hpid, hf⟩ := ipoptNlp_pre h2 t.nE s hb
  obtain ⟨-, -, f3⟩ := finish_iff hC p.good hpid hf (by rw [t.keys]; exact nodup_expectedKeys _ _) t.sum hocc hpl hnd
  intro n hn
  obtain ⟨v, hv, hs⟩ := p.scalars n hn
  exact ⟨v, by rw [f3 n (s.scalarNames hn).1]; exact hv, hs⟩

/-- **C37.** `solve(solver="ipopt")`: if it returns, then the nonlinear program was built and either the external solver raised and the
result is the 4-tuple with first component `None`, or it returned with `success` and the result is the 3-tuple whose first component is
a dictionary with exactly the known parameters, each with the value of its variable in the solution. -/
theorem C37_ipopt (hC : C.Lawful) (hr : runProblem C prog Heap.empty = .ok (r, h)) (hclean : ∀ i ∈ prog, i.Clean {n | n ∈ params})
    (s : SimpleParams params) (hok : ∀ d ∈ decls prog, d.Ok) (hb : ∀ b ∈ a.bounds, b.name ∈ scalarNames params)
    (hres : solve C X r params "ipopt" a h = .ok (res, h')) :
    ∃ nlp, solveIpopt C r params a.bounds a.init h = .ok (nlp, h') ∧
      (X.nlp nlp = .raised ∧ res = .failed ∨
        ∃ sol d, X.nlp nlp = .returned true sol ∧ res = .solved d ∧ d.keys = params ∧ ∀ n ∈ params, d.get? n = some [nlp.state.value sol n]) := by
  rw [solve, if_pos rfl] at hres
  obtain ⟨nlp, g, hn, hh⟩ := M.bind_ok_iff.1 hres
  obtain ⟨rfl, hc⟩ := nlpReport_cases hh
  refine ⟨nlp, hn, hc.imp id ?_⟩
  rintro ⟨sol, h1, h2⟩
  obtain ⟨sm0, hm0, -⟩ := solveIpopt_inv hn
  have hsc := ipopt_scalars hC hr hclean s hb (solvable_of_ok hC hr hok hm0) hn
  have hl : ∀ n ∈ params, (nlp.state.vars.get? n).map CaVar.entries = some ((nlp.state.vars.get? n).elim [] CaVar.entries) := by
    intro n hn
    obtain ⟨v, hv, -⟩ := hsc n (by rw [scalarNames]; simp [hn])
    rw [hv]; rfl
  have hd := dictParameters_spec (look := fun n => (nlp.state.vars.get? n).map CaVar.entries)
    (val := fun n => (nlp.state.vars.get? n).elim [] CaVar.entries) s.nodup hl sol
  refine ⟨sol, _, h1, h2, ?_, fun n hn => ?_⟩
  · rw [hd, Dict.keys, List.map_map]
    exact List.map_id' params
  · rw [hd, get?_map_mem (f := fun n => (((nlp.state.vars.get? n).elim [] CaVar.entries).map fun x => x.eval sol)) hn]
    obtain ⟨v, hv, hv1, hv2⟩ := hsc n (by rw [scalarNames]; simp [hn])
    rw [value_of_get hv, hv, Option.elim_some, CaVar.entries, hv1, hv2]
    rfl

theorem qcqp_report (hC : C.Lawful) {q : Qcqp} {sm : SymMats} {dimG dimF : ℕ} {d : QData} (hp : params.Nodup)
    (hq : qData C sm dimG dimF params = .ok d) (ht : q.tab = d.tab) (sol : ℕ → ℕ → ℕ → ℝ) {D : Dict Name (List ℝ)}
    (hD : D = dictParameters (fun n => (q.tab.idx.get? (.str n)).map fun i => [xv i]) params sol) :
    D.keys = params ∧ ∀ n ∈ params, ∃ i, q.tab.names[i]? = some (.str n) ∧ D.get? n = some [sol 0 i 0] := by
  obtain ⟨o, pre, -⟩ := qData_table hC hp hq
  rw [← ht] at o pre
  have hlook : ∀ n ∈ params, ∃ i, q.tab.idx.get? (.str n) = some i ∧ q.tab.names[i]? = some (.str n) := by
    intro n hn
    have hm : VName.str n ∈ q.tab.names := pre.subset (List.mem_cons_of_mem _ (List.mem_map.2 ⟨n, hn, rfl⟩))
    rw [← o.keys] at hm
    obtain ⟨i, hi⟩ := Option.isSome_iff_exists.1 ((Dict.get?_isSome_iff _ _).2 hm)
    refine ⟨i, hi, o.lookup.1 ?_⟩
    rw [VTab.lookup, hi]
  have hl : ∀ n ∈ params, (q.tab.idx.get? (.str n)).map (fun i => [xv i]) = some ((q.tab.idx.get? (.str n)).elim [] fun i => [xv i]) := by
    intro n hn
    obtain ⟨i, hi, -⟩ := hlook n hn
    rw [hi]; rfl
  have hd := dictParameters_spec (look := fun n => (q.tab.idx.get? (.str n)).map fun i => [xv i])
    (val := fun n => (q.tab.idx.get? (.str n)).elim [] fun i => [xv i]) hp hl sol
  rw [hD, hd]
  refine ⟨?_, fun n hn => ?_⟩
  · rw [Dict.keys, List.map_map]; exact List.map_id' params
  · obtain ⟨i, hi, hi'⟩ := hlook n hn
    refine ⟨i, hi', ?_⟩
    rw [get?_map_mem (f := fun n => (((q.tab.idx.get? (.str n)).elim [] fun i => [xv i]).map fun x => x.eval sol)) hn, hi]
    rfl

/-- **C37.** `solve(solver="ipopt_qcqp")`: the same, with the entry of the vector `x` for each parameter. -/
theorem C37_qcqp (hC : C.Lawful) (hp : params.Nodup) (hres : solve C X r params "ipopt_qcqp" a h = .ok (res, h')) :
    ∃ q, solveQcqp C r params a.bounds a.extra h = .ok (q, h') ∧
      (X.qcqp q = .raised ∧ res = .failed ∨
        ∃ sol d, X.qcqp q = .returned true sol ∧ res = .solved d ∧ d.keys = params ∧
          ∀ n ∈ params, ∃ i, q.tab.names[i]? = some (.str n) ∧ d.get? n = some [sol 0 i 0]) := by
  rw [solve, if_neg (by decide), if_pos rfl] at hres
  obtain ⟨q, g, hn, hh⟩ := M.bind_ok_iff.1 hres
  obtain ⟨rfl, hc⟩ := nlpReport_cases hh
  refine ⟨q, hn, hc.imp id ?_⟩
  rintro ⟨sol, h1, h2⟩
  obtain ⟨sm, hm, hq⟩ := solveQcqp_inv hn
  obtain ⟨d, bs, k1, k2, -⟩ := qcqpNlp_core hq
  exact ⟨sol, _, h1, h2, qcqp_report hC hp k1 k2 sol rfl⟩

/-- **C37.** `solve(solver="ipopt_qcqp_matrix")`: the same. -/
theorem C37_qcqp_matrix (hC : C.Lawful) (hp : params.Nodup) (hres : solve C X r params "ipopt_qcqp_matrix" a h = .ok (res, h')) :
    ∃ q, solveQcqpMatrix C r params a.bounds h = .ok (q, h') ∧
      (X.qcqp q = .raised ∧ res = .failed ∨
        ∃ sol d, X.qcqp q = .returned true sol ∧ res = .solved d ∧ d.keys = params ∧
          ∀ n ∈ params, ∃ i, q.tab.names[i]? = some (.str n) ∧ d.get? n = some [sol 0 i 0]) := by
  rw [solve, if_neg (by decide), if_neg (by decide), if_pos rfl] at hres
  obtain ⟨q, g, hn, hh⟩ := M.bind_ok_iff.1 hres
  obtain ⟨rfl, hc⟩ := nlpReport_cases hh
  refine ⟨q, hn, hc.imp id ?_⟩
  rintro ⟨sol, h1, h2⟩
  obtain ⟨sm, hm, hq⟩ := solveQcqpMatrix_inv hn
  obtain ⟨d, bs, k1, k2, -⟩ := qcqpMatrixNlp_core hq
  exact ⟨sol, _, h1, h2, qcqp_report hC hp k1 k2 sol rfl⟩

/-- **C37.** `solve(solver="fix_discr_sdp")`: it returns the given parameters and the status, whatever the status is. -/
theorem C37_sdp (hres : solve C X r params "fix_discr_sdp" a h = .ok (res, h')) :
    ∃ S s sol, solveFixedSdp C r params a.vals h = .ok (S, h') ∧ X.sdp 0 S = .status s sol ∧ res = .sdp a.vals s := by
  rw [solve, if_neg (by decide), if_neg (by decide), if_neg (by decide), if_pos rfl] at hres
  obtain ⟨S, g, hn, hh⟩ := M.bind_ok_iff.1 hres
  cases hx : X.sdp 0 S with
  | raised => rw [hx] at hh; cases hh
  | status s sol => rw [hx] at hh; cases hh; exact ⟨S, s, sol, hn, hx, rfl⟩

/-- **C37.** `solve(solver="bisection_eta")` returns the pair of the bisection run with the external solver as its oracle. -/
theorem C37_bisection (hres : solve C X r params "bisection_eta" a h = .ok (res, h')) :
    ∃ p eta, solveBisection C r params a.vals a.maxIters (fun t S => (X.sdp t S).seen) h = .ok ((p, eta), h') ∧ res = .bisection p eta := by
  rw [solve, if_neg (by decide), if_neg (by decide), if_neg (by decide), if_neg (by decide), if_pos rfl] at hres
  obtain ⟨S, g, hn, hh⟩ := M.bind_ok_iff.1 hres
  cases hh
  exact ⟨S.1, S.2, hn, rfl⟩

/-- **C37.** A solver that returns without success makes `solve` raise AssertionError. -/
theorem C37_unsuccessful {nlp : Nlp} {sol : ℕ → ℕ → ℕ → ℝ} (hn : solveIpopt C r params a.bounds a.init h = .ok (nlp, h'))
    (hx : X.nlp nlp = .returned false sol) : solve C X r params "ipopt" a h = .error .assertion := by
  rw [solve, if_pos rfl, M.bind_of_ok hn, hx]
  rfl

/-! ### What the returned numbers certify -/

theorem PE.den_congr {E : Type} [NormedAddCommGroup E] [InnerProductSpace ℝ E] {V : Set Name} {env env' : Name → ℝ} (he : ∀ n ∈ V, env n = env' n)
    (ps : List E) : ∀ a : PE, a.Clean V → a.den env ps = a.den env' ps
  | .reg _, _ => rfl
  | .add a b, h => by rw [PE.den, PE.den, PE.den_congr he ps a h.1, PE.den_congr he ps b h.2]
  | .sub a b, h => by rw [PE.den, PE.den, PE.den_congr he ps a h.1, PE.den_congr he ps b h.2]
  | .neg a, h => by rw [PE.den, PE.den, PE.den_congr he ps a h]
  | .scale s a, h => by rw [PE.den, PE.den, PE.den_congr he ps a h.2, Sym.eval_congr s fun n hn => he n (h.1 n hn)]
  | .div a c, h => by rw [PE.den, PE.den, PE.den_congr he ps a h]

theorem EE.den_congr {E : Type} [NormedAddCommGroup E] [InnerProductSpace ℝ E] {V : Set Name} {env env' : Name → ℝ} (he : ∀ n ∈ V, env n = env' n)
    (ps : List E) (es : List ℝ) : ∀ a : EE, a.Clean V → a.den env ps es = a.den env' ps es
  | .reg _, _ => rfl
  | .inner a b, h => by rw [EE.den, EE.den, PE.den_congr he ps a h.1, PE.den_congr he ps b h.2]
  | .pow a _, h => by rw [EE.den, EE.den, PE.den_congr he ps a h]
  | .add a b, h => by rw [EE.den, EE.den, EE.den_congr he ps es a h.1, EE.den_congr he ps es b h.2]
  | .sub a b, h => by rw [EE.den, EE.den, EE.den_congr he ps es a h.1, EE.den_congr he ps es b h.2]
  | .neg a, h => by rw [EE.den, EE.den, EE.den_congr he ps es a h]
  | .scale s a, h => by rw [EE.den, EE.den, EE.den_congr he ps es a h.2, Sym.eval_congr s fun n hn => he n (h.1 n hn)]
  | .div a c, h => by rw [EE.den, EE.den, EE.den_congr he ps es a h]
  | .addNum a c, h => by rw [EE.den, EE.den, EE.den_congr he ps es a h.1]
  | .subNum a c, h => by rw [EE.den, EE.den, EE.den_congr he ps es a h.1]
  | .rsubNum c a, h => by rw [EE.den, EE.den, EE.den_congr he ps es a h.1]

/-- an execution depends on the values of the symbols the program uses only -/
theorem Exec.congr_env {E : Type} [NormedAddCommGroup E] [InnerProductSpace ℝ E] {SR : ℕ → E → E → ℝ → Prop} {V : Set Name} {env env' : Name → ℝ}
    (he : ∀ n ∈ V, env n = env' n) : ∀ {prog : List Instr} {rr rr' : RRegs E}, (∀ i ∈ prog, i.Clean V) → Exec SR env prog rr rr' →
      Exec SR env' prog rr rr' := by
  intro prog rr rr' hc hx
  induction hx with
  | nil => exact .nil _
  | @cons i is r1 r2 r3 hs _ ih =>
    refine .cons ?_ (ih fun j hj => hc j (List.mem_cons_of_mem _ hj))
    have hi := hc i (List.mem_cons_self ..)
    cases hs with
    | declare _ d => exact .declare _ d
    | fn _ a => exact .fn _ a
    | pt _ a => rw [PE.den_congr he _ a hi]; exact .pt _ a
    | ex _ a => rw [EE.den_congr he _ _ a hi]; exact .ex _ a
    | initial _ x => exact .initial _ x
    | stationary _ f x v hh => exact .stationary _ f x v hh
    | oracle _ f x g v hh => exact .oracle _ f x g v hh
    | gradient _ f x g v hh => exact .gradient _ f x g v hh
    | value _ f x g v hh => exact .value _ f x g v hh
    | prox _ x0 f gamma x g v hh hx => exact .prox _ x0 f gamma x g v hh (by rw [← Sym.eval_congr gamma fun n hn => he n (hi n hn)]; exact hx)
    | conj _ g f x v hh => exact .conj _ g f x v hh
    | addPoint _ f x g v hh => exact .addPoint _ f x g v hh
    | constr _ e k => exact .constr _ e k
    | metric _ e => exact .metric _ e
    | objective _ e => exact .objective _ e

/-- **C37 with C26.** Let the external solver report success only at feasible points.  If `solve(solver="ipopt")` returns a dictionary,
then for the parameter values in this dictionary, in every real inner product space, for all functions of the declared classes and every
execution that satisfies the extra constraints, the performance metric is at most 0. -/
theorem C37_ipopt_certifies (hC : C.Lawful) (hr : runProblem C prog Heap.empty = .ok (r, h)) (hclean : ∀ i ∈ prog, i.Clean {n | n ∈ params})
    (s : SimpleParams params) (hok : ∀ d ∈ decls prog, d.Ok) (hb : ∀ b ∈ a.bounds, b.name ∈ scalarNames params)
    (hX : ∀ nlp sol, X.nlp nlp = .returned true sol → nlp.state.Sat sol) {d : Dict Name (List ℝ)}
    (hres : solve C X r params "ipopt" a h = .ok (.solved d, h')) {env : Name → ℝ} (henv : ∀ n ∈ params, d.get? n = some [env n]) :
    ∀ {E : Type} [NormedAddCommGroup E] [InnerProductSpace ℝ E] (fs : ℕ → CFun E), Instance prog fs → ∀ (rr : RRegs E),
      RealExec fs env prog rr → rr.ConsHold → ∀ v, rr.metric = some v → v ≤ 0 := by
  obtain ⟨nlp, hn, hcase⟩ := C37_ipopt hC hr hclean s hok hb hres
  rcases hcase with ⟨-, hc⟩ | ⟨sol, d', h1, h2, -, h4⟩
  · cases hc
  · cases h2
    intro E _ _ fs hi rr hx
    refine (C26_sound hC hr hclean (fun n hn => (s.names n (List.mem_append_left _ hn)).1) (fun n hn => (s.names n (List.mem_append_left _ hn)).2.1)
      hok hn (hX _ _ h1)).2 fs hi rr (Exec.congr_env (V := {n | n ∈ params}) (fun n hn => ?_) hclean hx)
    have := (h4 n hn).symm.trans (henv n hn)
    simp only [Option.some.injEq, List.cons.injEq, and_true] at this
    exact this.symm

/-- **C37 with C27.** The same for `solve(solver="ipopt_qcqp")`. -/
theorem C37_qcqp_certifies (hC : C.Lawful) (hr : runProblem C prog Heap.empty = .ok (r, h)) (hclean : ∀ i ∈ prog, i.Clean {n | n ∈ params})
    (hp : params.Nodup) (hpl : ∀ n ∈ params, Plain n) (hok : ∀ d ∈ decls prog, d.Ok) (hb : ∀ b ∈ a.bounds, b.name ∈ params ∧ b.name ≠ "x")
    (hX : ∀ q sol, X.qcqp q = .returned true sol → q.Sat fun i => sol 0 i 0) {d : Dict Name (List ℝ)}
    (hres : solve C X r params "ipopt_qcqp" a h = .ok (.solved d, h')) {env : Name → ℝ} (henv : ∀ n ∈ params, d.get? n = some [env n]) :
    ∀ {E : Type} [NormedAddCommGroup E] [InnerProductSpace ℝ E] (fs : ℕ → CFun E), Instance prog fs → ∀ (rr : RRegs E),
      RealExec fs env prog rr → rr.ConsHold → ∀ v, rr.metric = some v → v ≤ 0 := by
  obtain ⟨q, hn, hcase⟩ := C37_qcqp hC hp hres
  rcases hcase with ⟨-, hc⟩ | ⟨sol, d', h1, h2, -, h4⟩
  · cases hc
  · cases h2
    have hbb : ∀ b ∈ a.bounds, VName.str b.name ∈ q.tab.names ∧ b.name ≠ "x" := by
      intro b hbm
      obtain ⟨i, hi, -⟩ := h4 b.name (hb b hbm).1
      exact ⟨List.mem_of_getElem? hi, (hb b hbm).2⟩
    obtain ⟨env', he, -, hs⟩ := C27_sound hC hr hclean hp hpl hok hn hbb (hX _ _ h1)
    intro E _ _ fs hi rr hx
    refine hs fs hi rr (Exec.congr_env (V := {n | n ∈ params}) (fun n hn => ?_) hclean hx)
    obtain ⟨i, hi, hd⟩ := h4 n hn
    have := hd.symm.trans (henv n hn)
    simp only [Option.some.injEq, List.cons.injEq, and_true] at this
    rw [he i n hn hi, this]

/-! ### The hypotheses are met: the descent lemma with a reciprocal parameter and a bound -/

open Classical in
/-- a solver that knows one point, and reports it whenever it is feasible -/
noncomputable def onePoint (σ : ℕ → ℕ → ℕ → ℝ) (x : ℕ → ℝ) : External where
  nlp n := if n.state.Sat σ then .returned true σ else .raised
  qcqp q := if q.Sat x then .returned true (fun _ i _ => x i) else .raised
  sdp _ _ := .raised

theorem onePoint_nlp {σ : ℕ → ℕ → ℕ → ℝ} {x : ℕ → ℝ} (nlp : Nlp) (sol) (h : (onePoint σ x).nlp nlp = .returned true sol) : nlp.state.Sat sol := by
  rw [onePoint] at h
  simp only at h
  split at h
  · injection h with _ h; subst h; assumption
  · cases h

theorem onePoint_qcqp {σ : ℕ → ℕ → ℕ → ℝ} {x : ℕ → ℝ} (q : Qcqp) (sol) (h : (onePoint σ x).qcqp q = .returned true sol) : q.Sat fun i => sol 0 i 0 := by
  rw [onePoint] at h
  simp only at h
  split at h
  · injection h with _ h; subst h; assumption
  · cases h

theorem descent2_decls : ∀ d ∈ decls descentProg2, d.Ok := by
  intro d hd
  simp only [descentProg2, decls, List.mem_cons, List.not_mem_nil, or_false] at hd
  subst hd
  norm_num [FnDecl.Ok]

theorem descent2_vec : ∃ r h q h', runProblem refCAS descentProg2 Heap.empty = .ok (r, h) ∧
    solveQcqp refCAS r descentParams2 [⟨"h", none, some (1 / 8)⟩] 0 h = .ok (q, h') ∧ Solvable r h ∧
    (∀ b ∈ [(⟨"h", none, some (1 / 8)⟩ : Bound)], VName.str b.name ∈ q.tab.names ∧ b.name ≠ "x") ∧
    q.Sat fun i => ((descentVec i : ℚ) : ℝ) := qcqp_of_check (by decide +kernel)

/-- `C37_ipopt` and `C37_ipopt_certifies` apply to it: the result is a dictionary, and it certifies -/
example : ∃ (X : External) (r : Regs) (h h' : Heap) (d : Dict Name (List ℝ)) (env : Name → ℝ),
    solve refCAS X r descentParams2 "ipopt" { bounds := [⟨"h", none, some (1 / 8)⟩] } h = .ok (.solved d, h') ∧ d.keys = descentParams2 ∧
    ∀ {E : Type} [NormedAddCommGroup E] [InnerProductSpace ℝ E] (fs : ℕ → CFun E), Instance descentProg2 fs → ∀ (rr : RRegs E),
      RealExec fs env descentProg2 rr → rr.ConsHold → ∀ v, rr.metric = some v → v ≤ 0 := by
  obtain ⟨r, h, nlp, h', h1, h2, h3, h4⟩ := descent2_feasible
  have hb : ∀ b ∈ [(⟨"h", none, some (1 / 8)⟩ : Bound)], b.name ∈ scalarNames descentParams2 := by decide +kernel
  have hX := onePoint_nlp (σ := fun v a b => ((descentSol2 v a b : ℚ) : ℝ)) (x := fun _ => 0)
  have hx : (onePoint (fun v a b => ((descentSol2 v a b : ℚ) : ℝ)) fun _ => 0).nlp nlp = .returned true _ := if_pos h4
  obtain ⟨res, hres, hs⟩ : ∃ res, solve refCAS (onePoint (fun v a b => ((descentSol2 v a b : ℚ) : ℝ)) fun _ => 0) r descentParams2 "ipopt"
      { bounds := [⟨"h", none, some (1 / 8)⟩] } h = .ok (res, h') ∧ ∃ d, res = .solved d := by
    rw [solve, if_pos rfl, M.bind_of_ok h2, hx]
    exact ⟨_, rfl, _, rfl⟩
  obtain ⟨nlp', k1, k2⟩ := C37_ipopt refCAS_lawful h1 descent2_clean descentParams2_simple descent2_decls hb hres
  rcases k2 with ⟨-, k⟩ | ⟨sol, d, k3, k4, k5, k6⟩
  · obtain ⟨d, hs⟩ := hs
    rw [k] at hs
    cases hs
  · rw [k4] at hres
    exact ⟨_, r, h, h', d, _, hres, k5, C37_ipopt_certifies refCAS_lawful h1 descent2_clean descentParams2_simple descent2_decls hb hX hres k6⟩

/-- the same for `C37_qcqp` and `C37_qcqp_certifies` -/
example : ∃ (X : External) (r : Regs) (h h' : Heap) (d : Dict Name (List ℝ)) (env : Name → ℝ),
    solve refCAS X r descentParams2 "ipopt_qcqp" { bounds := [⟨"h", none, some (1 / 8)⟩], extra := 0 } h = .ok (.solved d, h') ∧ d.keys = descentParams2 ∧
    ∀ {E : Type} [NormedAddCommGroup E] [InnerProductSpace ℝ E] (fs : ℕ → CFun E), Instance descentProg2 fs → ∀ (rr : RRegs E),
      RealExec fs env descentProg2 rr → rr.ConsHold → ∀ v, rr.metric = some v → v ≤ 0 := by
  classical
  obtain ⟨r, h, q, h', h1, h2, h3, h4, h5⟩ := descent2_vec
  have hX := onePoint_qcqp (σ := fun _ _ _ => 0) (x := fun i => ((descentVec i : ℚ) : ℝ))
  have hx : (onePoint (fun _ _ _ => 0) fun i => ((descentVec i : ℚ) : ℝ)).qcqp q = .returned true _ := if_pos h5
  obtain ⟨res, hres, hs⟩ : ∃ res, solve refCAS (onePoint (fun _ _ _ => 0) fun i => ((descentVec i : ℚ) : ℝ)) r descentParams2 "ipopt_qcqp"
      { bounds := [⟨"h", none, some (1 / 8)⟩], extra := 0 } h = .ok (res, h') ∧ ∃ d, res = .solved d := by
    rw [solve, if_neg (by decide), if_pos rfl, M.bind_of_ok h2, hx]
    exact ⟨_, rfl, _, rfl⟩
  obtain ⟨q', k1, k2⟩ := C37_qcqp refCAS_lawful (by decide) hres
  rcases k2 with ⟨-, k⟩ | ⟨sol, d, k3, k4, k5, k6⟩
  · obtain ⟨d, hs⟩ := hs
    rw [k] at hs
    cases hs
  · rw [k4] at hres
    have hpl : ∀ n ∈ descentParams2, Plain n := fun n hn => (descentParams2_simple.names n (List.mem_append_left _ hn)).1
    have hd : ∀ n ∈ descentParams2, d.get? n = some [((d.get? n).bind fun l => l[0]?).getD 0] := by
      intro n hn
      obtain ⟨i, -, hi⟩ := k6 n hn
      rw [hi]; rfl
    exact ⟨_, r, h, h', d, _, hres, k5, C37_qcqp_certifies refCAS_lawful h1 descent2_clean (by decide) hpl descent2_decls (by decide) hX hres hd⟩

end Verif
