import Verif.Model.Gurobi
import Verif.Props.Qcqp

/-!
# C51: the Gurobi formulation never finds a multiplier of an interpolation inequality
-/

namespace Verif
open Heap

variable {C : CAS} {h h' h0 : Heap} {r : Regs} {prog : List Instr} {params : List Name} {bounds : List Bound} {nlp : Nlp}

/-- **C51.** The names under which `solve_gp` registers the multipliers of the functions are never the names (`lamb0`, `lamb1`, ...) the
symbolic matrices refer to. -/
theorem C51_names (j k : ℕ) : gpLambVar j ≠ lambVar k := by
  intro hh
  have := congrArg String.toList hh
  simp only [gpLambVar, lambVar, String.toList_append, toString_toList, List.append_assoc] at this
  have h1 : digits j ++ "ho".toList = digits k := List.append_cancel_left this
  have : 'h' ∈ digits k := by rw [← h1]; exact List.mem_append_right _ (by decide)
  exact absurd (digits_isDigit this) (by decide)

theorem gpVar_vars (st : CaState) (n : Name) (a b : ℕ) (l u : ℚ) : (st.gpVar n a b l u).vars = st.vars.set n ⟨st.sizes.length, a, b⟩ := rfl

theorem gpFnDuals_get (bounds : List Bound) {n : Name} (hn : ∀ j, gpLambVar j ≠ n) : ∀ (ns : List ℕ) (k : ℕ) (st : CaState),
    (gpFnDuals bounds ns k st).vars.get? n = st.vars.get? n := by
  intro ns
  induction ns with
  | nil => intro k st; rfl
  | cons m ns ih =>
    intro k st
    rw [gpFnDuals, ih]
    show ((st.gpVar (gpLambVar k) m m 0 1000).vars).get? n = _
    rw [gpVar_vars, Dict.get?_set, if_neg (hn k).symm]

theorem lambVar_ne (k : ℕ) : ∀ n ∈ ["eta", "rho", "h", "gamma", "alpha", "beta", "P", "nu0"], lambVar k ≠ n := by
  intro n hn hh
  have h1 : (lambVar k).toList.take 4 = ['l', 'a', 'm', 'b'] := by simp [lambVar, String.toList_append]
  rw [hh] at h1
  have : ∀ n ∈ ["eta", "rho", "h", "gamma", "alpha", "beta", "P", "nu0"], n.toList.take 4 ≠ ['l', 'a', 'm', 'b'] := by decide
  exact this n hn h1

/-- **C51.** In the dictionary built by `solve_gp` there is no variable for the multipliers of any function: `lamb<k>` is missing for every
number `k` that belongs to a function. -/
theorem C51_missing (ns : List ℕ) (nCons nE dimG : ℕ) (bounds : List Bound) {k : ℕ} (hk : (if nCons - nE ≥ 1 then 1 else 0) ≤ k) :
    (gpPrepare ns nCons nE dimG bounds).vars.get? (lambVar k) = none := by
  have hne := lambVar_ne k
  simp only [List.mem_cons, List.not_mem_nil, or_false, forall_eq_or_imp, forall_eq] at hne
  obtain ⟨n1, n2, n3, n4, n5, n6, n7, n8⟩ := hne
  rw [gpPrepare, gpFnDuals_get _ fun j => C51_names j k]
  have hbase : (gpTriangular 6 dimG (gpBounds bounds (gpInit dimG))).vars.get? (lambVar k) = none := by
    show (gpInit dimG).vars.get? (lambVar k) = none
    simp only [gpInit, gpVar_vars, Dict.get?_set, if_neg n1, if_neg n2, if_neg n3, if_neg n4, if_neg n5, if_neg n6, if_neg n7]
    rfl
  have hmid : (if nCons - nE ≥ 1 then (gpTriangular 6 dimG (gpBounds bounds (gpInit dimG))).gpVar "lamb0" (nCons - nE) 1 0 1000
      else gpTriangular 6 dimG (gpBounds bounds (gpInit dimG))).vars.get? (lambVar k) = none := by
    split
    · rename_i hc
      rw [if_pos hc] at hk
      rw [gpVar_vars, Dict.get?_set, if_neg, hbase]
      intro hh
      rw [lambVar, show "lamb0" = "lamb" ++ toString 0 by decide +kernel] at hh
      have := congrArg String.toList hh
      simp only [String.toList_append, toString_toList] at this
      have := digits_inj (List.append_cancel_left this)
      omega
    · exact hbase
  rw [gpExtraDuals]
  split
  · rw [gpVar_vars, Dict.get?_set, if_neg n8, hmid]
  · exact hmid

/-- **C51.** A product of two or more parameters that is not registered is a NameError: the code refers to an undefined name `gp`. -/
theorem C51_product {l : List Name} {st : CaState} (hst : st.PlainKeys) (hl : 2 ≤ l.length) : gpLinMonomial l st = .error .unbound := by
  rw [gpLinMonomial]
  have hlen : (sortNames l).length = l.length := List.length_insertionSort _ _
  match hs : sortNames l, hlen with
  | [], h => simp at h; omega
  | [a], h => simp at h; omega
  | a :: b :: rest, _ =>
    simp only
    rw [gpLoop, if_neg]
    · rfl
    · intro hh
      rw [Dict.has_iff] at hh
      exact not_plain_join (l := [a]) (by simp) b (hst _ hh)

theorem gpMonomial_notMem {parts : List Name} {st : CaState} {x : CExp} {k i j : ℕ} (hst : st.vars.get? (lambVar k) = none)
    (hx : gpMonomial parts st = .ok x) : lambName k i j ∉ parts := by
  intro hmem
  obtain ⟨c1, c2, c3, -⟩ := findDual_spec parts
  obtain ⟨l1, l2⟩ := C21_lamb k i j
  have hpos : 0 < (findDual parts).countLamb := by rw [c1]; exact List.countP_pos_iff.2 ⟨_, hmem, l1⟩
  obtain ⟨n, hn, hl⟩ := c3 hpos
  rw [gpMonomial, if_pos (List.ne_nil_of_mem hmem)] at hx
  split at hx
  swap
  · cases hx
  rename_i hle
  rw [gpDualMonomial, hn] at hx
  have hone : (parts.eraseIdx (findDual parts).idxLamb).countP isLamb = 0 := by
    have := countP_eraseIdx (p := isLamb) hn
    rw [if_pos hl, ← c1] at this
    omega
  have hnk : n = lambName k i j := by
    obtain ⟨hi, rfl⟩ := List.getElem?_eq_some_iff.1 hn
    rcases List.mem_cons.1 ((List.getElem_cons_eraseIdx_perm hi).mem_iff.2 hmem) with hh | hh
    · exact hh.symm
    · exact absurd l1 (List.countP_eq_zero.1 hone _ hh)
  subst hnk
  simp only [l2] at hx
  obtain ⟨d, hd, hx⟩ := Except.bind_ok_iff.1 hx
  injection hd with hd
  subst hd
  obtain ⟨y, hy, hx⟩ := Except.bind_ok_iff.1 hx
  rw [CaState.entry] at hy
  simp only at hy
  rw [show ("lamb" ++ toString k : String) = lambVar k from rfl, hst] at hy
  cases hy

theorem gpTerms_notMem {st : CaState} {k i j : ℕ} (hst : st.vars.get? (lambVar k) = none) : ∀ {ts : List PolyTerm} {acc x : CExp},
    gpTerms ts acc st = .ok x → ∀ t ∈ ts, lambName k i j ∉ monoParts t := by
  intro ts
  induction ts with
  | nil => intro _ _ _ t ht; cases ht
  | cons t ts ih =>
    intro acc x hx s hs
    rw [gpTerms] at hx
    obtain ⟨y, hy, hx⟩ := Except.bind_ok_iff.1 hx
    rcases List.mem_cons.1 hs with rfl | hs
    · exact gpMonomial_notMem hst hy
    · exact ih hx s hs

/-- an expression that can be converted does not depend on the multiplier -/
theorem exprToGurobi_indep (hC : C.Lawful) {st : CaState} {k i j : ℕ} (hst : st.vars.get? (lambVar k) = none) {e : Sym} {x : CExp}
    (hx : exprToGurobi C e st = .ok x) {env env' : Name → ℝ} (he : ∀ n, n ≠ lambName k i j → env n = env' n) :
    e.eval (longEnv env) = e.eval (longEnv env') := by
  rw [exprToGurobi] at hx
  split at hx
  · rename_i hc
    rw [isConst_eval hC hc, isConst_eval hC hc]
  · have hn := gpTerms_notMem (i := i) (j := j) hst hx
    rw [← hC.simp_eval, ← hC.simp_eval (longEnv env'), ← hC.poly_eval, ← hC.poly_eval (longEnv env')]
    congr 1
    refine List.map_congr_left fun t ht => ?_
    rw [prod_monoParts, prod_monoParts]
    congr 2
    refine List.map_congr_left fun n hnm => he n ?_
    rintro rfl
    exact hn t ht hnm

theorem exprsToGurobi_mem {st : CaState} : ∀ {es : List Sym} {xs : List CExp}, exprsToGurobi C es st = .ok xs → ∀ e ∈ es, ∃ x, exprToGurobi C e st = .ok x := by
  intro es
  induction es with
  | nil => intro _ _ e he; cases he
  | cons a es ih =>
    intro xs hx e he
    rw [exprsToGurobi] at hx
    obtain ⟨y, hy, hx⟩ := Except.bind_ok_iff.1 hx
    obtain ⟨ys, hys, hx⟩ := Except.bind_ok_iff.1 hx
    rcases List.mem_cons.1 he with rfl | he
    · exact ⟨y, hy⟩
    · exact ih hys e he

theorem solveGp_inv (hs : solveGp C r bounds h = .ok (nlp, h')) :
    ∃ sm, problemMatrices C r h = .ok (sm, h') ∧
      gpNlp C sm ((leafFnIds h).map (nSamples h')) r.cons.length h.ptCounter h.exCounter bounds r.obj = .ok nlp := by
  rw [solveGp] at hs
  obtain ⟨h0, h1, h2, hs⟩ := M.bind_ok_iff.1 hs
  injection h2 with h2
  simp only [Prod.mk.injEq] at h2
  obtain ⟨rfl, rfl⟩ := h2
  obtain ⟨sm, h2, h3, hs⟩ := M.bind_ok_iff.1 hs
  obtain ⟨h2, h5, h6, hs⟩ := M.bind_ok_iff.1 hs
  injection h6 with h6
  simp only [Prod.mk.injEq] at h6
  obtain ⟨rfl, rfl⟩ := h6
  cases hx : gpNlp C sm ((leafFnIds h).map (nSamples h2)) r.cons.length h.ptCounter h.exCounter bounds r.obj with
  | ok x =>
    have hs' : (match gpNlp C sm ((leafFnIds h).map (nSamples h2)) r.cons.length h.ptCounter h.exCounter bounds r.obj with
      | .ok x => pure x | .error e => M.throw e : M Nlp) h2 = .ok (nlp, h') := hs
    rw [hx] at hs'
    injection hs' with hs'
    simp only [Prod.mk.injEq] at hs'
    obtain ⟨rfl, rfl⟩ := hs'
    exact ⟨sm, h3, hx⟩
  | error e =>
    have hs' : (match gpNlp C sm ((leafFnIds h).map (nSamples h2)) r.cons.length h.ptCounter h.exCounter bounds r.obj with
      | .ok x => pure x | .error e => M.throw e : M Nlp) h2 = .ok (nlp, h') := hs
    rw [hx] at hs'
    cases hs'

theorem name_ne {k i j : ℕ} {key : SpKey} (hne : key ≠ .tup 0 k i j) (ho : key ≠ .obj) : key.name ≠ lambName k i j := by
  intro hh
  cases key with
  | obj => exact ho rfl
  | tup a b c d =>
    cases a with
    | zero =>
      obtain ⟨rfl, rfl, rfl⟩ := lambName_inj hh
      exact hne rfl
    | succ a => exact (lambName_ne_nuName hh.symm).elim

/-- weighted sums over a dictionary, at two valuations that differ in one multiplier -/
theorem sum_diff {ents : List (SpKey × FG)} {k i j : ℕ} {m : FG} (hmem : (SpKey.tup 0 k i j, m) ∈ ents) (hnd : (ents.map Prod.fst).Nodup)
    (hobj : ∀ en ∈ ents, en.1 ≠ SpKey.obj) {env env' : Name → ℝ} (he : ∀ n, n ≠ lambName k i j → env n = env' n) (v : FG → ℝ)
    (hs : (ents.map fun en => env en.1.name * v en.2).sum = (ents.map fun en => env' en.1.name * v en.2).sum) :
    env (lambName k i j) * v m = env' (lambName k i j) * v m := by
  obtain ⟨l1, l2, rfl⟩ := List.append_of_mem hmem
  have hne : ∀ en ∈ l1 ++ l2, env en.1.name = env' en.1.name := by
    intro en hen
    refine he _ (name_ne ?_ (hobj en ?_))
    · intro hk
      rw [List.map_append, List.map_cons] at hnd
      have := (List.nodup_middle.1 hnd)
      rw [List.nodup_cons, ← List.map_append] at this
      exact this.1 (List.mem_map.2 ⟨en, hen, hk⟩)
    · rcases List.mem_append.1 hen with hh | hh
      · exact List.mem_append_left _ hh
      · exact List.mem_append_right _ (List.mem_cons_of_mem _ hh)
  have h1 : (l1.map fun en => env en.1.name * v en.2) = l1.map fun en => env' en.1.name * v en.2 :=
    List.map_congr_left fun en hen => by rw [hne en (List.mem_append_left _ hen)]
  have h2 : (l2.map fun en => env en.1.name * v en.2) = l2.map fun en => env' en.1.name * v en.2 :=
    List.map_congr_left fun en hen => by rw [hne en (List.mem_append_right _ hen)]
  rw [List.map_append, List.map_cons, List.sum_append, List.sum_cons, List.map_append, List.map_cons, List.sum_append, List.sum_cons, h1, h2] at hs
  have := add_right_cancel (add_left_cancel hs)
  exact this

/-- **C51.** If `solve_gp` manages to build its program, then every interpolation inequality of every function is trivial: all its
coefficients are identically zero. -/
theorem C51_trivial (hC : C.Lawful) (hr : runProblem C prog Heap.empty = .ok (r, h)) (hclean : ∀ i ∈ prog, i.Clean {n | n ∈ params})
    (hpl : ∀ n ∈ params, Plain n) (hnd : ∀ n ∈ params, ¬ IsDual n) (hs : Solvable r h) (hn : solveGp C r bounds h = .ok (nlp, h')) :
    ∃ sm, problemMatrices C r h = .ok (sm, h') ∧ ∀ k i j m, fnShift r.cons ≤ k → sm.spExp.get? (.tup 0 k i j) = some m → ∀ env : Name → ℝ,
      (∀ a < h.exCounter, (m.F a).eval env = 0) ∧ ∀ a < h.ptCounter, ∀ b < h.ptCounter, (m.G a b).eval env = 0 := by
  obtain ⟨sm, h1, h2⟩ := solveGp_inv hn
  refine ⟨sm, h1, ?_⟩
  intro k i j m hk hm env
  have t := translate_of hC hr hs h1
  have hc := qcqp_clean hC hr hclean h1
  have hocc : ∀ en ∈ sm.spExp, ∀ n, en.2.Occurs n → n ∈ params := fun en hen n hn => t.occurs hc en hen n hn
  obtain ⟨ents, obj, hsp, hext⟩ := t.sum
  have hndk : (Dict.keys sm.spExp).Nodup := by rw [t.keys]; exact nodup_expectedKeys _ _
  obtain ⟨hfil, hget⟩ := DualFeasible.split hsp hndk
  rw [gpNlp] at h2
  simp only [hget] at h2
  obtain ⟨obj', hobj', h2⟩ := Except.bind_ok_iff.1 h2
  injection hobj' with hobj'
  subst hobj'
  obtain ⟨xs1, e1, h2⟩ := Except.bind_ok_iff.1 h2
  obtain ⟨xs2, e2, h2⟩ := Except.bind_ok_iff.1 h2
  have hcount : r.cons.length - sm.nE = (ineqCons r.cons).length := by
    rw [t.nE]
    have : ∀ l : List (ExId × Kind), l.length = (ineqCons l).length + (eqCons l).length := by
      intro l
      induction l with
      | nil => rfl
      | cons c l ih =>
        obtain ⟨e, kd⟩ := c
        cases kd
        · simp [ineqCons, eqCons] at ih ⊢; omega
        · simp [ineqCons, eqCons] at ih ⊢; omega
    rw [this r.cons]; omega
  have hst := C51_missing ((leafFnIds h).map (nSamples h')) r.cons.length sm.nE h.ptCounter bounds (k := k) (by rw [hcount]; exact hk)
  have hmem : (SpKey.tup 0 k i j, m) ∈ ents := by
    have := Dict.mem_of_get? hm
    rw [hsp] at this
    rcases List.mem_append.1 this with hh | hh
    · exact hh
    · rw [List.mem_singleton] at hh; cases hh
  have hnde : (ents.map Prod.fst).Nodup := by
    rw [hsp, Dict.keys_append] at hndk
    exact (List.nodup_append.1 hndk).1
  have hobj : ∀ en ∈ ents, en.1 ≠ SpKey.obj := by
    intro en hen
    rw [← hfil, List.mem_filter] at hen
    simpa using hen.2
  -- two valuations that differ in the multiplier only
  set envA : Name → ℝ := fun n => if n = lambName k i j then 0 else env n with hA
  set envB : Name → ℝ := fun n => if n = lambName k i j then 1 else env n with hB
  have hAB : ∀ n, n ≠ lambName k i j → envA n = envB n := fun n hn => by simp [hA, hB, hn]
  have hkn : Plain (lambName k i j) := SpKey.name_plain (a := 0)
  have hlong : ∀ n, n ≠ lambName k i j → Plain n → longEnv envA n = longEnv envB n := fun n hn hp => by
    rw [longEnv_plain hp, longEnv_plain hp, hAB n hn]
  have hpar : ∀ n ∈ params, longEnv envA n = longEnv envB n ∧ longEnv envA n = env n := fun n hp => by
    have hne : n ≠ lambName k i j := by
      rintro rfl
      exact hnd _ hp (Or.inl (C21_lamb k i j).1)
    refine ⟨hlong n hne (hpl n hp), ?_⟩
    rw [longEnv_plain (hpl n hp)]
    simp [hA, hne]
  have hmemsp : ∀ en ∈ ents, en ∈ sm.spExp := fun en hen => by rw [hsp]; exact List.mem_append_left _ hen
  have hobjm : (SpKey.obj, obj) ∈ sm.spExp := by rw [hsp]; simp
  have hnames : ∀ n, n ≠ lambName k i j → ∀ en ∈ ents, n = en.1.name → longEnv envA n = longEnv envB n := by
    intro n hn en hen hh
    refine hlong n hn ?_
    rw [hh]
    cases hen' : en.1 with
    | obj => exact absurd hen' (hobj en hen)
    | tup a b c d => exact SpKey.name_plain
  -- the weighted sums agree, so the entry of the pair vanishes
  have key : ∀ (v : FG → Sym), (∀ en ∈ sm.spExp, ∀ n ∈ (v en.2).vars, n ∈ params) →
      (ents.map fun en => longEnv envA en.1.name * (v en.2).eval (longEnv envA)).sum - (v obj).eval (longEnv envA) =
        (ents.map fun en => longEnv envB en.1.name * (v en.2).eval (longEnv envB)).sum - (v obj).eval (longEnv envB) →
      (v m).eval env = 0 := by
    intro v hv heq
    have hcon : ∀ en ∈ sm.spExp, (v en.2).eval (longEnv envA) = (v en.2).eval env ∧ (v en.2).eval (longEnv envB) = (v en.2).eval env := fun en hen =>
      ⟨Sym.eval_congr _ fun n hn => (hpar n (hv en hen n hn)).2,
        Sym.eval_congr _ fun n hn => (hpar n (hv en hen n hn)).1.symm.trans (hpar n (hv en hen n hn)).2⟩
    rw [(hcon _ hobjm).1, (hcon _ hobjm).2] at heq
    have heq := sub_left_inj.1 heq
    have hA' : (ents.map fun en => longEnv envA en.1.name * (v en.2).eval (longEnv envA)) = ents.map fun en => envA en.1.name * (v en.2).eval env :=
      List.map_congr_left fun en hen => by
        rw [(hcon en (hmemsp en hen)).1]
        congr 1
        cases hen' : en.1 with
        | obj => exact absurd hen' (hobj en hen)
        | tup a b c d => exact longEnv_plain SpKey.name_plain
    have hB' : (ents.map fun en => longEnv envB en.1.name * (v en.2).eval (longEnv envB)) = ents.map fun en => envB en.1.name * (v en.2).eval env :=
      List.map_congr_left fun en hen => by
        rw [(hcon en (hmemsp en hen)).2]
        congr 1
        cases hen' : en.1 with
        | obj => exact absurd hen' (hobj en hen)
        | tup a b c d => exact longEnv_plain SpKey.name_plain
    rw [hA', hB'] at heq
    have := sum_diff hmem hnde hobj hAB (fun m => (v m).eval env) heq
    simp only [hA, hB, if_true, zero_mul, one_mul] at this
    exact this.symm
  constructor
  · intro a ha
    refine key (fun m => m.F a) (fun en hen n hn => hocc en hen n (Or.inl ⟨a, hn⟩)) ?_
    obtain ⟨x, hx⟩ := exprsToGurobi_mem e1 ((simplifyMatrix C (sm.sum.sub obj)).F a) (by
      rw [FG.flatF]; exact List.mem_map.2 ⟨a, List.mem_range.2 ha, rfl⟩)
    have := exprToGurobi_indep hC hst hx hAB
    rw [simplifyMatrix] at this
    simp only at this
    rw [linearize_eval hC, linearize_eval hC] at this
    simp only [FG.sub, Sym.eval_sub] at this
    rw [(hext _).1, (hext _).1] at this
    simpa only [FG.zero, Sym.eval_num, Rat.cast_zero, zero_add] using this
  · intro a ha b hb
    refine key (fun m => m.G a b) (fun en hen n hn => hocc en hen n (Or.inr ⟨a, b, hn⟩)) ?_
    obtain ⟨x, hx⟩ := exprsToGurobi_mem e2 ((simplifyMatrix C (sm.sum.sub obj)).G a b) (by
      rw [FG.flatG]
      refine List.mem_map.2 ⟨h.ptCounter * a + b, List.mem_range.2 ?_, ?_⟩
      · calc h.ptCounter * a + b < h.ptCounter * a + h.ptCounter := by omega
          _ = h.ptCounter * (a + 1) := by ring
          _ ≤ h.ptCounter * h.ptCounter := Nat.mul_le_mul_left _ ha
      · rw [Nat.mul_add_div (by omega), Nat.div_eq_of_lt hb, Nat.mul_add_mod, Nat.mod_eq_of_lt hb, Nat.add_zero])
    have := exprToGurobi_indep hC hst hx hAB
    rw [simplifyMatrix] at this
    simp only at this
    rw [linearize_eval hC, linearize_eval hC] at this
    simp only [FG.sub, Sym.eval_sub] at this
    rw [(hext _).2, (hext _).2] at this
    simpa only [FG.zero, Sym.eval_num, Rat.cast_zero, zero_add] using this

/-- **C51** (violated). `solve_gp` raises an exception for every problem in which some function has two samples with different function
values, i.e. with values that differ for some values of the leaves. -/
theorem C51_raises (hC : C.Lawful) (hr : runProblem C prog Heap.empty = .ok (r, h)) (hclean : ∀ i ∈ prog, i.Clean {n | n ∈ params})
    (hpl : ∀ n ∈ params, Plain n) (hnd : ∀ n ∈ params, ¬ IsDual n) (hs : Solvable r h) {k f i j : ℕ} {o : FnObj} {ti tj : Triplet}
    (hf : r.decl[k]? = some f) (ho : h.fns[f]? = some o) (hij : i ≠ j) (hi : o.points[i]? = some ti) (hj : o.points[j]? = some tj)
    {env : Name → ℝ} {ψ : ExId → ℝ} (hdiff : h.exVal env (fun _ => (0 : ℝ)) ψ ti.2.2 ≠ h.exVal env (fun _ => (0 : ℝ)) ψ tj.2.2) :
    ∃ e, solveGp C r bounds h = .error e := by
  cases hx : solveGp C r bounds h with
  | error e => exact ⟨e, rfl⟩
  | ok y =>
    exfalso
    obtain ⟨nlp, h'⟩ := y
    obtain ⟨sm, h1, hz⟩ := C51_trivial hC hr hclean hpl hnd hs hx
    have t := translate_of hC hr hs h1
    obtain ⟨es, -, -, hp⟩ := C10_classConstraints hC hr hs h1 hf ho
    obtain ⟨e, -, m, hI, hM, hm⟩ := hp i j ti tj hij hi hj
    obtain ⟨zF, zG⟩ := hz _ i j m (Nat.le_add_right _ _) hm env
    have hval := hM.val (E := ℝ) env (fun _ => 0) ψ
    rw [exConst_of_clean (qcqp_clean hC hr hclean h1), add_zero, hI.val, FG.val, t.grow.exCounter, t.grow.ptCounter] at hval
    rw [Finset.sum_eq_zero fun a ha => by rw [zF a (Finset.mem_range.1 ha), zero_mul],
      Finset.sum_eq_zero fun a ha => Finset.sum_eq_zero fun b hb => by rw [zG a (Finset.mem_range.1 ha) b (Finset.mem_range.1 hb), zero_mul],
      add_zero] at hval
    have hpt : ∀ p, h'.ptVal env (fun _ => (0 : ℝ)) p = 0 := by
      intro p
      rw [ptVal]
      split
      · rw [Dict.den]; simp
      · rfl
    have hw := (reached_inv hC hr).wf
    have hcomp : o.cls ≠ .base := by
      intro hb
      have := (hs f (List.mem_of_getElem? hf) o ho).1
      rw [hb] at this
      exact this
    have heq : h'.exVal env (fun _ => (0 : ℝ)) ψ tj.2.2 = h'.exVal env (fun _ => (0 : ℝ)) ψ ti.2.2 := by
      simp only [hpt] at hval
      cases hcls : o.cls with
      | base => exact absurd hcls hcomp
      | convex => rw [hcls] at hval; simp [FnClass.lhs] at hval; linarith
      | strongly mu => rw [hcls] at hval; simp [FnClass.lhs] at hval; linarith
      | smoothStrongly mu L => rw [hcls] at hval; simp [FnClass.lhs] at hval; linarith
      | smoothConvex L => rw [hcls] at hval; simp [FnClass.lhs] at hval; linarith
    have hlive : h.TripletLive ti ∧ h.TripletLive tj := by
      have hmemf : f ∈ leafFnIds h := by rw [decl_eq_leafFnIds (reached_inv hC hr)]; exact List.mem_of_getElem? hf
      obtain ⟨o', ho', hok⟩ := hw.fn f (List.mem_of_mem_filter hmemf)
      rw [ho] at ho'; cases ho'
      exact ⟨hok.points _ (List.mem_of_getElem? hi), hok.points _ (List.mem_of_getElem? hj)⟩
    rw [t.grow.exVal hlive.2.2.2.isEx, t.grow.exVal hlive.1.2.2.isEx] at heq
    exact hdiff heq.symm

/-- two samples of the first declared function with different leaf expressions as values -/
def twoSamples (r : Regs) (h : Heap) : Bool :=
  match r.decl[0]? with
  | some f => match h.fns[f]? with
    | some o => match o.points[0]?, o.points[1]? with
      | some ti, some tj => match h.exs[ti.2.2]?, h.exs[tj.2.2]? with
        | some oi, some oj => decide (oi.dict = [(.fn ti.2.2, .num 1)] ∧ oj.dict = [(.fn tj.2.2, .num 1)] ∧ ti.2.2 ≠ tj.2.2 ∧ r.decl = [f] ∧
            o.cls = .smoothConvex 2 ∧ o.points.Nodup)
        | _, _ => false
      | _, _ => false
    | none => false
  | none => false

/-- run a program and look at its first function -/
def checkTwo (prog : List Instr) : Bool :=
  match runProblem refCAS prog Heap.empty with
  | .ok x => twoSamples x.1 x.2
  | .error _ => false

theorem raises_of_check (hc : checkTwo prog = true) (hclean : ∀ i ∈ prog, i.Clean {n | n ∈ params})
    (hpl : ∀ n ∈ params, Plain n) (hnd : ∀ n ∈ params, ¬ IsDual n) :
    ∃ r h, runProblem refCAS prog Heap.empty = .ok (r, h) ∧ ∃ e, solveGp refCAS r bounds h = .error e := by
  rw [checkTwo] at hc
  cases hr : runProblem refCAS prog Heap.empty with
  | error e => rw [hr] at hc; cases hc
  | ok x =>
    obtain ⟨r, h⟩ := x
    rw [hr] at hc
    refine ⟨r, h, rfl, ?_⟩
    simp only [twoSamples] at hc
    split at hc
    case h_2 => cases hc
    rename_i f hf
    split at hc
    case h_2 => cases hc
    rename_i o ho
    split at hc
    case h_2 => cases hc
    rename_i ti tj hi hj
    split at hc
    case h_2 => cases hc
    rename_i oi oj hoi hoj
    obtain ⟨d1, d2, hne, hd, hcl, hno⟩ := of_decide_eq_true hc
    refine C51_raises refCAS_lawful hr hclean hpl hnd ?_ hf ho (by decide) hi hj (env := fun _ => 0)
      (ψ := fun e => if e = ti.2.2 then 1 else 0) ?_
    · intro f' hf' o' ho'
      rw [hd, List.mem_singleton] at hf'
      subst hf'
      rw [ho] at ho'
      cases ho'
      rw [hcl]
      exact ⟨by norm_num [FnClass.Computable], hno⟩
    · simp [exVal, hoi, hoj, d1, d2, Dict.den, keyVal, Sym.eval, hne.symm]

/-- all hypotheses of `C51_raises` are met by one step of gradient descent: `solve_gp` raises on it -/
example : ∃ r h, runProblem refCAS descentProg Heap.empty = .ok (r, h) ∧ ∃ e, solveGp refCAS r [] h = .error e := by
  refine raises_of_check (params := ["eta", "h"]) (by decide +kernel) ?_ (by decide +kernel) (by decide +kernel)
  intro i hi
  simp only [descentProg, List.mem_cons, List.not_mem_nil, or_false] at hi
  rcases hi with rfl | rfl | rfl | rfl | rfl | rfl | rfl <;> simp [Instr.Clean, PE.Clean, EE.Clean, Sym.vars]

end Verif
