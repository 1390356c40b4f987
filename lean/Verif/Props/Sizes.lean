import Verif.Proofs.Sizes
import Verif.Props.Qcqp
import Verif.Props.CircuitCerts
import Verif.Props.HelloWorld

/-!
# C75: the sizes printed before the solver starts
-/

namespace Verif
open Heap

variable {C : CAS} {h h' : Heap} {r : Regs} {prog : List Instr} {params : List Name} {bounds : List Bound} {init : List Name} {extra : ℕ} {nlp : Nlp} {q : Qcqp}

/-- **C75**, `solve_ipopt`, every call: the printed total never exceeds the number of scalar decision variables of the program. -/
theorem C75_le (hs : solveIpopt C r params bounds init h = .ok (nlp, h')) :
    (printedIpopt params h nlp).total ≤ (nlp.state.sizes.map fun s => s.1 * s.2).sum := by
  obtain ⟨sm, -, hn⟩ := solveIpopt_inv hs
  obtain ⟨st1, pid, cs, h1, h2⟩ := ipoptNlp_stages hn
  have k := closed_countLe
  have k' : Closed (fun st n => st.vars.has n = false) CountLe := ⟨fun _ => k.new trivial, k.cons⟩
  have i0 : CountLe (ipoptInit h.ptCounter) := k.ipoptInit _ ⟨List.nodup_nil, by simp [caTotalSize]⟩ fun _ _ => trivial
  have i1 := k'.addParams (params := params) (k.invLoop _ i0 h1)
  exact (k'.finish (k.fnDuals _ _ (k.extraDuals _ _ (k.cons cs i1))) h2).2

/-- **C75**, `solve_ipopt`: if no reciprocal parameter refers to one of the seven standard names (as `invh` to `h`), the printed total is exactly the
number of scalar decision variables of the program. -/
theorem C75_total (s : SimpleParams params) (hf : ∀ n ∈ invParams params, n ∉ baseNames) (hs : solveIpopt C r params bounds init h = .ok (nlp, h')) :
    (printedIpopt params h nlp).total = (nlp.state.sizes.map fun s => s.1 * s.2).sum := by
  obtain ⟨sm, -, hn⟩ := solveIpopt_inv hs
  obtain ⟨st1, pid, cs, h1, h2⟩ := ipoptNlp_stages hn
  have hinv : ∀ n, "inv" ++ n ∉ baseNames := by
    intro n hn
    have hb : ∀ m ∈ baseNames, ¬ ['i', 'n', 'v'] <+: m.toList := by decide
    exact hb _ hn ⟨n.toList, by rw [inv_toList]; rfl⟩
  obtain ⟨i1, k1⟩ := invLoop_named (invParams params) s.inv_nodup (fun v hv w _ => s.inv_ne hv) (fun n hn => by
    constructor
    · intro hk
      rcases ipoptInit_keys _ _ hk with hh | hh
      · exact hf n hn hh
      · exact (s.names n (List.mem_append_right _ hn)).2.2 hh
    · intro hk
      rcases ipoptInit_keys _ _ hk with hh | hh
      · exact hinv n hh
      · exact (s.names _ (List.mem_append_left _ (s.mem_inv hn).1)).2.2 hh) (ipoptInit_named _) h1
  have i2 : Named { addParams params st1 with cons := cs } := closed_named.cons cs (closed_named.addParams i1)
  refine (closed_named.finish (duals_named i2 (fun n hn => ?_) _ _ _) h2).total
  have hP : ¬ IsDual "P" := by decide
  rcases addParams_keys n hn with hh | hh
  · rcases k1 n hh with hh | hh | ⟨m, hm, rfl⟩
    · rcases ipoptInit_keys _ _ hh with hh | rfl
      · exact (baseNames_ok n hh).2.1
      · exact hP
    · exact (s.names n (List.mem_append_right _ hh)).2.1
    · exact (s.names _ (List.mem_append_left _ (s.mem_inv hm).1)).2.1
  · exact (s.names n (List.mem_append_left _ hh)).2.1

/-- **C75**, the condition is needed: with the parameter `invh` the variable `h` is made twice and the printed total is one too small -/
theorem C75_orphan : ∃ r h nlp h', runProblem refCAS descentProg2 Heap.empty = .ok (r, h) ∧
    solveIpopt refCAS r descentParams2 [] [] h = .ok (nlp, h') ∧ "invh" ∈ descentParams2 ∧
    (printedIpopt descentParams2 h nlp).total + 1 = (nlp.state.sizes.map fun s => s.1 * s.2).sum := by
  have : (match runProblem refCAS descentProg2 Heap.empty with
    | .ok (r, h) => match solveIpopt refCAS r descentParams2 [] [] h with
      | .ok (nlp, _) => decide ((printedIpopt descentParams2 h nlp).total + 1 = (nlp.state.sizes.map fun s => s.1 * s.2).sum)
      | .error _ => false
    | .error _ => false) = true := by decide +kernel
  split at this
  · rename_i r h hr
    split at this
    · rename_i nlp h' hn
      exact ⟨r, h, nlp, h', hr, hn, by decide, of_decide_eq_true this⟩
    · cases this
  · cases this

/-- a packed vector is determined by its first entries -/
theorem packs_congr {sm : SymMats} {ents : List (SpKey × FG)} {obj : FG} (pr : sm.Prepared ents obj) {names : List VName} {dimG dimF : ℕ} {x y : ℕ → ℝ}
    {env : Name → ℝ} {mult : SpKey → ℝ} {P : ℕ → ℕ → ℝ} (hxy : ∀ i < names.length + sm.nI + sm.nE + dimG * (dimG + 1) / 2, x i = y i)
    (pk : Packs sm names dimG dimF x env mult P) : Packs sm names dimG dimF y env mult P := by
  refine ⟨fun i n hi => ?_, fun k key hk hkey => ?_, fun i hi k hk => ?_, pk.upper, pk.diag, pk.dual⟩
  · rw [← hxy i (by have := (List.getElem?_eq_some_iff.1 hi).1; omega)]; exact pk.monos i n hi
  · have hlt : k < sm.nI + sm.nE := by
      rw [← pr.len]
      by_contra hge
      rw [pr.sp, Dict.keys_append] at hk
      have hl : (Dict.keys ents).length = ents.length := List.length_map _
      rw [List.getElem?_append_right (by omega)] at hk
      have := List.mem_of_getElem? hk
      simp [Dict.keys] at this
      exact hkey this
    rw [← hxy _ (by omega)]; exact pk.mults k key hk hkey
  · have h1 : i * (i + 1) / 2 + k < dimG * (dimG + 1) / 2 := by
      have h2 : (i + 1) * (i + 2) / 2 ≤ dimG * (dimG + 1) / 2 := Nat.div_le_div_right (Nat.mul_le_mul (by omega) (by omega))
      have h3 : (i + 1) * (i + 2) / 2 = i * (i + 1) / 2 + (i + 1) := by
        rw [show (i + 1) * (i + 2) = i * (i + 1) + (i + 1) * 2 by ring, Nat.add_mul_div_right _ _ (by norm_num)]
      omega
    rw [← hxy _ (by omega)]; exact pk.tri i hi k hk

/-- **C75**, `solve_ipopt_qcqp`: the "actual" number of variables is the length of the part of `x` that matters.  Two vectors that agree there satisfy the
same constraints, with the same objective value; the other `extra_dim` entries of the printed total are free. -/
theorem C75_qcqp (hC : C.Lawful) (hr : runProblem C prog Heap.empty = .ok (r, h)) (hclean : ∀ i ∈ prog, i.Clean {n | n ∈ params})
    (hp : params.Nodup) (hpl : ∀ n ∈ params, Plain n) (hok : ∀ d ∈ decls prog, d.Ok) (hn : solveQcqp C r params bounds extra h = .ok (q, h'))
    (hb : ∀ b ∈ bounds, VName.str b.name ∈ q.tab.names ∧ b.name ≠ "x") :
    (printedQcqp h q).total = (printedQcqp h q).actual + extra ∧
      ∀ x y : ℕ → ℝ, (∀ i < (printedQcqp h q).actual, x i = y i) → q.Sat x →
        q.Sat y ∧ q.obj.eval (fun _ i _ => y i) = q.obj.eval (fun _ i _ => x i) := by
  obtain ⟨sm0, hm0, hq⟩ := solveQcqp_inv hn
  have hs := solvable_of_ok hC hr hok hm0
  obtain ⟨sm, hm, hiff, hobj⟩ := C27_iff hC hr hclean hp hpl hs hn hb
  rw [hm0] at hm
  injection hm with hm
  simp only [Prod.mk.injEq, and_true] at hm
  subst hm
  have t := translate_of hC hr hs hm0
  obtain ⟨ents, obj, pr⟩ := t.prepared
  obtain ⟨d, bs, h1, h2, h3, -⟩ := qcqpNlp_core hq
  obtain ⟨cs, co, fr⟩ := qData_inv h1
  have hx : q.s.x = q.tab.names.length + sm0.nI + sm0.nE + h.ptCounter * (h.ptCounter + 1) / 2 := by
    rw [h3, h2, fr.s]; rfl
  refine ⟨?_, fun x y hxy hsx => ?_⟩
  · rw [qcqpNlp] at hq
    obtain ⟨q1, -, hq⟩ := Except.bind_ok_iff.1 hq
    obtain ⟨b1, -, hq⟩ := Except.bind_ok_iff.1 hq
    obtain ⟨b2, -, hq⟩ := Except.bind_ok_iff.1 hq
    obtain ⟨b3, -, hq⟩ := Except.bind_ok_iff.1 hq
    obtain ⟨b4, -, hq⟩ := Except.bind_ok_iff.1 hq
    obtain ⟨b5, -, hq⟩ := Except.bind_ok_iff.1 hq
    injection hq with hq
    subst hq
    rfl
  · obtain ⟨env, mult, P, pk, hrest⟩ := (hiff x).1 hsx
    have pk' := packs_congr pr (fun i hi => hxy i (by rw [printedQcqp, hx]; exact hi)) pk
    exact ⟨(hiff y).2 ⟨env, mult, P, pk', hrest⟩, by rw [hobj _ _ _ _ pk, hobj _ _ _ _ pk']⟩

/-- **C75**, `extra_dim` changes nothing but the number of variables -/
theorem C75_extra {extra' : ℕ} (hn : solveQcqp C r params bounds extra h = .ok (q, h')) :
    ∃ q', solveQcqp C r params bounds extra' h = .ok (q', h') ∧ q'.tab = q.tab ∧ q'.s = q.s ∧ q'.cons = q.cons ∧ q'.obj = q.obj := by
  obtain ⟨sm, hm, hq⟩ := solveQcqp_inv hn
  rw [qcqpNlp] at hq
  obtain ⟨q1, a1, hq⟩ := Except.bind_ok_iff.1 hq
  obtain ⟨bs, a2, hq⟩ := Except.bind_ok_iff.1 hq
  obtain ⟨low, a3, hq⟩ := Except.bind_ok_iff.1 hq
  obtain ⟨prods, a4, hq⟩ := Except.bind_ok_iff.1 hq
  obtain ⟨invs, a5, hq⟩ := Except.bind_ok_iff.1 hq
  obtain ⟨o, a6, hq⟩ := Except.bind_ok_iff.1 hq
  injection hq with hq
  have hq' : ∃ q', qcqpNlp C sm h.ptCounter h.exCounter params bounds extra' r.obj = .ok q' ∧ q'.tab = q.tab ∧ q'.s = q.s ∧ q'.cons = q.cons ∧ q'.obj = q.obj := by
    refine ⟨{ q with nVars := q1.s.x + extra' }, ?_, rfl, rfl, rfl, rfl⟩
    rw [qcqpNlp]
    refine Except.bind_ok_iff.2 ⟨q1, a1, Except.bind_ok_iff.2 ⟨bs, a2, Except.bind_ok_iff.2 ⟨low, a3, Except.bind_ok_iff.2 ⟨prods, a4,
      Except.bind_ok_iff.2 ⟨invs, a5, Except.bind_ok_iff.2 ⟨o, a6, ?_⟩⟩⟩⟩⟩⟩
    rw [← hq]
  obtain ⟨q', b1, b2⟩ := hq'
  refine ⟨q', ?_, b2⟩
  rw [solveQcqp, M.bind_of_ok (show M.get h = .ok (h, h) from rfl), M.bind_of_ok hm, b1]
  rfl

/-- the hypotheses of `C75_total` and `C75_le` are met by the program of `README.md` -/
example : ∃ r h nlp h', runProblem refCAS (Build.helloWorld 0 none 1 10).prog Heap.empty = .ok (r, h) ∧
    solveIpopt refCAS r stdParams [] [] h = .ok (nlp, h') ∧
    (printedIpopt stdParams h nlp).total = (nlp.state.sizes.map fun s => s.1 * s.2).sum := by
  obtain ⟨r, h, nlp, h', hr, hn, -⟩ := C74_complete refCAS_lawful 0 none 1 10 (by simp [defDecl, FnDecl.Ok]) (by norm_num) (by norm_num)
  exact ⟨r, h, nlp, h', hr, hn, C75_total stdParams_simple (by decide) hn⟩

/-- the hypotheses of `C75_qcqp` are met by the descent lemma with a reciprocal parameter and bounds, at a feasible vector -/
example : ∃ (q : Qcqp) (h : Heap) (x : ℕ → ℝ), q.Sat x ∧ ∀ y : ℕ → ℝ, (∀ i < (printedQcqp h q).actual, x i = y i) → q.Sat y := by
  obtain ⟨r, h, q, h', h1, h2, h3, h4, h5⟩ := descent_qcqp
  have hok : ∀ d ∈ decls descentProg2, d.Ok := by
    intro d hd
    simp only [descentProg2, decls, List.mem_cons, List.not_mem_nil, or_false] at hd
    subst hd
    norm_num [FnDecl.Ok]
  have hclean : ∀ i ∈ descentProg2, i.Clean {n | n ∈ descentParams2} := by
    intro i hi
    simp only [descentProg2, List.mem_cons, List.not_mem_nil, or_false] at hi
    rcases hi with rfl | rfl | rfl | rfl | rfl | rfl | rfl <;> simp [Instr.Clean, PE.Clean, EE.Clean, Sym.vars, descentParams2]
  refine ⟨q, h, _, h5, fun y hy => ?_⟩
  exact ((C75_qcqp refCAS_lawful h1 hclean (by decide) (by intro n hn; simp [descentParams2] at hn; rcases hn with rfl | rfl | rfl | rfl | rfl <;> (unfold Plain; decide))
    hok h2 h4).2 _ y hy h5).1

end Verif
