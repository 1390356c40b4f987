import Verif.Spec.Qcqp
import Verif.Props.Arrays
import Verif.Props.Parsing

/-!
# Evaluation of the QCQP constraints
-/

namespace Verif

section ev
variable (σ : ℕ → ℕ → ℕ → ℝ)

@[simp] theorem CExp.eval_zero : (0 : CExp).eval σ = 0 := by show ((0:ℚ):ℝ) = 0; simp
@[simp] theorem CExp.eval_one : (1 : CExp).eval σ = 1 := by show ((1:ℚ):ℝ) = 1; simp
@[simp] theorem CExp.eval_add (a b : CExp) : (a + b).eval σ = a.eval σ + b.eval σ := rfl
@[simp] theorem CExp.eval_mul (a b : CExp) : (a * b).eval σ = a.eval σ * b.eval σ := rfl
@[simp] theorem CExp.eval_sub (a b : CExp) : (a - b).eval σ = a.eval σ - b.eval σ := by
  show a.eval σ + ((-1 : ℚ) : ℝ) * b.eval σ = _
  push_cast; ring

theorem eval_sumTo (n : ℕ) (f : ℕ → CExp) : (sumTo n f).eval σ = sumTo n fun k => (f k).eval σ := by
  have : ∀ (l : List ℕ) (a : CExp), (l.foldl (fun acc k => acc + f k) a).eval σ = l.foldl (fun acc k => acc + (f k).eval σ) (a.eval σ) := by
    intro l
    induction l with
    | nil => intro a; rfl
    | cons b l ih => intro a; rw [List.foldl_cons, ih]; rfl
  rw [sumTo, this, CExp.eval_zero]; rfl

/-- values of the entries -/
noncomputable def Mat.ev (m : Mat CExp) : Mat ℝ := m.map (CExp.eval σ)

theorem Mat.ev_mul (a b : Mat CExp) : (a.mul b).ev σ = (a.ev σ).mul (b.ev σ) := by
  simp only [Mat.ev, Mat.map, Mat.mul, eval_sumTo]
  rfl

theorem Mat.ev_T (a : Mat CExp) : a.T.ev σ = (a.ev σ).T := rfl

theorem Mat.eval_trace (a : Mat CExp) : a.trace.eval σ = (a.ev σ).trace := eval_sumTo σ _ _

theorem Mat.ev_ofList (l : List CExp) : (Mat.ofList l).ev σ = Mat.ofList (l.map (CExp.eval σ)) := by
  simp only [Mat.ev, Mat.map, Mat.ofList, List.length_map, Mat.mk.injEq, true_and]
  funext i j
  rw [List.getD_eq_getElem?_getD, List.getD_eq_getElem?_getD, List.getElem?_map]
  cases l[i]? <;> simp

/-- a rational matrix as a real matrix -/
noncomputable def Mat.real (m : Mat ℚ) : Mat ℝ := m.map fun c : ℚ => (c : ℝ)

theorem Mat.ev_lift (m : Mat ℚ) : m.lift.ev σ = m.real := rfl

theorem Mat.ev_eye (n : ℕ) : (Mat.eye n : Mat CExp).ev σ = Mat.eye n := by
  simp only [Mat.ev, Mat.map, Mat.eye, Mat.mk.injEq, true_and]
  funext i j; split <;> simp

theorem Mat.ev_zeros (n m : ℕ) : (Mat.zeros n m : Mat CExp).ev σ = Mat.zeros n m := by
  simp only [Mat.ev, Mat.map, Mat.zeros, CExp.eval_zero]

theorem Mat.ev_hcat (a b : Mat CExp) : (a.hcat b).ev σ = (a.ev σ).hcat (b.ev σ) := by
  have : ∀ i j, ((a.hcat b).at_ i j).eval σ = ((a.ev σ).hcat (b.ev σ)).at_ i j := by
    intro i j
    simp only [Mat.hcat]
    by_cases h : j < a.cols
    · rw [if_pos h, if_pos (show j < (a.ev σ).cols from h)]; rfl
    · rw [if_neg h, if_neg (show ¬ j < (a.ev σ).cols from h)]; rfl
  show Mat.mk _ _ _ = Mat.mk _ _ _
  congr 1
  funext i j; exact this i j

theorem ev_selMatrix (n c1 c3 : ℕ) : (selMatrix n c1 c3 : Mat CExp).ev σ = selMatrix n c1 c3 := by
  rw [selMatrix, Mat.ev_hcat, Mat.ev_hcat, Mat.ev_eye, Mat.ev_zeros, Mat.ev_zeros]; rfl

theorem ev_getVecVarM (n : ℕ) (vi : VecIdx) : (getVecVarM n vi : Mat CExp).ev σ = getVecVarM n vi := ev_selMatrix σ _ _ _

theorem ev_diagSel (n : ℕ) : (diagSel n : Mat CExp).ev σ = diagSel n := by
  simp only [Mat.ev, Mat.map, diagSel, Mat.mk.injEq, true_and]
  funext i j; split <;> simp

theorem map_pySlice {α β : Type} (f : α → β) (l : List α) (a b : ℕ) : (pySlice l a b).map f = pySlice (l.map f) a b := by
  simp [pySlice, List.map_take, List.map_drop]

theorem eval_dotL (u v : List CExp) : (dotL u v).eval σ = dotL (u.map (CExp.eval σ)) (v.map (CExp.eval σ)) := by
  have : ∀ (l : List CExp) (a : CExp), (l.foldl (· + ·) a).eval σ = (l.map (CExp.eval σ)).foldl (· + ·) (a.eval σ) := by
    intro l
    induction l with
    | nil => intro a; rfl
    | cons b l ih => intro a; rw [List.foldl_cons, ih]; rfl
  rw [dotL, this, CExp.eval_zero, dotL]
  congr 1
  rw [List.map_zipWith, List.zipWith_map]
  rfl

theorem eval_getPPtElement (v : List CExp) (k1 k2 : ℕ) : (getPPtElement v k1 k2).eval σ = getPPtElement (v.map (CExp.eval σ)) k1 k2 := by
  rw [getPPtElement, eval_dotL, map_pySlice, map_pySlice]; rfl

end ev

/-- the vector `x` as a list -/
def realVec (n : ℕ) (x : ℕ → ℝ) : List ℝ := (List.range n).map x

theorem map_xVec (n : ℕ) (x : ℕ → ℝ) : (xVec n).map (CExp.eval fun _ i _ => x i) = realVec n x := by
  simp [xVec, realVec, xv, CExp.eval, List.map_map, Function.comp_def]

@[simp] theorem length_realVec (n : ℕ) (x : ℕ → ℝ) : (realVec n x).length = n := by simp [realVec]

theorem getD_realVec {n i : ℕ} (h : i < n) (x : ℕ → ℝ) : (realVec n x).getD i 0 = x i := by simp [realVec, h]

theorem getD_slice {n a b i : ℕ} (x : ℕ → ℝ) (h : i < b - a) (hn : b ≤ n) : (pySlice (realVec n x) a b).getD i 0 = x (a + i) := by
  rw [getD_pySlice _ h, getD_realVec (by omega)]

/-- the arrays have the shapes the code asserts -/
structure QData.Shaped (q : QData) : Prop where
  objF : q.objF.cols = q.s.v
  objG : q.objG.cols = q.s.v
  sumFr : ∀ k, (q.sumF k).rows = q.s.nI + q.s.nE
  sumFc : ∀ k, (q.sumF k).cols = q.s.v
  sumGr : ∀ k, (q.sumG k).rows = q.s.nI + q.s.nE
  sumGc : ∀ k, (q.sumG k).cols = q.s.v

section vals
variable {q : QData} (x : ℕ → ℝ)

/-- a row of coefficients times the monomials -/
noncomputable def linVal (s : QSizes) (m : Mat ℚ) (k : ℕ) (x : ℕ → ℝ) : ℝ := ∑ j ∈ Finset.range s.v, (m.at_ k j : ℝ) * x j

/-- the bilinear form in multipliers and monomials -/
noncomputable def bilVal (s : QSizes) (m : Mat ℚ) (x : ℕ → ℝ) : ℝ :=
  ∑ i ∈ Finset.range (s.nI + s.nE), ∑ j ∈ Finset.range s.v, (m.at_ i j : ℝ) * (x (s.v + i) * x j)

theorem ev_vecV : q.vecV.ev (fun _ i _ => x i) = Mat.ofList (pySlice (realVec q.s.x x) 0 q.s.v) := by
  rw [QData.vecV, Mat.ev_ofList, getVecVar, map_pySlice, map_xVec]; rfl

theorem ev_vecLN : q.vecLN.ev (fun _ i _ => x i) = Mat.ofList (pySlice (realVec q.s.x x) q.s.v (q.s.v + q.s.nI + q.s.nE)) := by
  rw [QData.vecLN, Mat.ev_ofList, getVecVar, map_pySlice, map_xVec]; rfl

theorem QSizes.x_eq (s : QSizes) : s.x = s.v + (s.nI + s.nE) + startIdx s.dimG := by rw [QSizes.x, startIdx]; omega

theorem vecV_at {j : ℕ} (hj : j < q.s.v) : (q.vecV.at_ j 0).eval (fun _ i _ => x i) = x j := by
  have : (q.vecV.ev (fun _ i _ => x i)).at_ j 0 = x j := by
    rw [ev_vecV]
    simp only [Mat.ofList]
    rw [getD_slice _ (by omega) (by rw [QSizes.x_eq]; omega), Nat.zero_add]
  exact this

theorem vecV_rows : q.vecV.rows = q.s.v := by
  simp only [QData.vecV, Mat.ofList, getVecVar, QSizes.vI]
  rw [length_pySlice _ (by simp [xVec, QSizes.x_eq]; omega)]; rfl

theorem vecLN_at {j : ℕ} (hj : j < q.s.nI + q.s.nE) : (q.vecLN.at_ j 0).eval (fun _ i _ => x i) = x (q.s.v + j) := by
  have : (q.vecLN.ev (fun _ i _ => x i)).at_ j 0 = x (q.s.v + j) := by
    rw [ev_vecLN]
    simp only [Mat.ofList]
    rw [getD_slice _ (by omega) (by rw [QSizes.x_eq]; omega)]
  exact this

theorem vecLN_rows : q.vecLN.rows = q.s.nI + q.s.nE := by
  simp only [QData.vecLN, Mat.ofList, getVecVar, QSizes.lambNuI]
  rw [length_pySlice _ (by simp [xVec, QSizes.x_eq]; omega)]; omega

theorem eval_at (m : Mat CExp) (σ : ℕ → ℕ → ℕ → ℝ) (i j : ℕ) : (m.at_ i j).eval σ = (m.ev σ).at_ i j := rfl

theorem lin_eval (m : Mat ℚ) (hm : m.cols = q.s.v) (k : ℕ) :
    (((m.row k).lift.mul q.vecV).at_ 0 0).eval (fun _ i _ => x i) = linVal q.s m k x := by
  rw [eval_at, Mat.ev_mul, mul_at, linVal]
  show ∑ j ∈ Finset.range m.cols, _ = _
  rw [hm]
  refine Finset.sum_congr rfl fun j hj => ?_
  rw [show (q.vecV.ev fun _ i _ => x i).at_ j 0 = x j from vecV_at x (Finset.mem_range.1 hj)]
  rfl

theorem bil_eval (m : Mat ℚ) (hc : m.cols = q.s.v) :
    (((q.vecLN.T.mul m.lift).mul q.vecV).at_ 0 0).eval (fun _ i _ => x i) = bilVal q.s m x := by
  rw [eval_at, Mat.ev_mul, Mat.ev_mul, mul_at, bilVal]
  show ∑ j ∈ Finset.range m.cols, _ = _
  rw [hc, Finset.sum_comm]
  refine Finset.sum_congr rfl fun j hj => ?_
  rw [show (q.vecV.ev fun _ i _ => x i).at_ j 0 = x j from vecV_at x (Finset.mem_range.1 hj), mul_at, Finset.sum_mul]
  show ∑ i ∈ Finset.range q.vecLN.rows, _ = _
  rw [vecLN_rows]
  refine Finset.sum_congr rfl fun i hi => ?_
  rw [show (q.vecLN.T.ev fun _ i _ => x i).at_ 0 i = x (q.s.v + i) from vecLN_at x (Finset.mem_range.1 hi)]
  show x (q.s.v + i) * (m.at_ i j : ℝ) * x j = _
  ring

theorem symmProdOneHot_at {n i j : ℕ} (a b : ℕ) :
    ((symmProdOneHot n i j).at_ a b : ℝ) = 1 / 2 * ((if a = i then 1 else 0) * (if b = j then 1 else 0) + (if a = j then 1 else 0) * (if b = i then 1 else 0)) := by
  simp only [symmProdOneHot, symmProd, Mat.smul, Mat.add, Mat.mul, Mat.T, oneHot, Mat.col, Mat.eye, sumTo, List.range_one, List.foldl_cons,
    List.foldl_nil, zero_add]
  push_cast
  split_ifs <;> norm_num

theorem sum_pick {n i : ℕ} (h : i < n) (f : ℕ → ℝ) : ∑ k ∈ Finset.range n, (if k = i then 1 else 0) * f k = f i := by
  rw [Finset.sum_eq_single i]
  · simp
  · intro b _ hb; simp [hb]
  · intro hh; simp at hh; omega

theorem quad_sum {n i j : ℕ} (hi : i < n) (hj : j < n) :
    ∑ a ∈ Finset.range n, ∑ b ∈ Finset.range n, ((symmProdOneHot n i j).at_ a b : ℝ) * (x a * x b) = x i * x j := by
  have : ∀ a, ∑ b ∈ Finset.range n, ((symmProdOneHot n i j).at_ a b : ℝ) * (x a * x b) =
      (if a = i then 1 else 0) * (1 / 2 * x a * x j) + (if a = j then 1 else 0) * (1 / 2 * x a * x i) := by
    intro a
    rw [← sum_pick hj fun b => (if a = i then 1 else 0) * (1 / 2 * x a * x b), ← sum_pick hi fun b => (if a = j then 1 else 0) * (1 / 2 * x a * x b),
      ← Finset.sum_add_distrib]
    refine Finset.sum_congr rfl fun b _ => ?_
    rw [symmProdOneHot_at]; ring
  simp only [this]
  rw [Finset.sum_add_distrib, sum_pick hi, sum_pick hj]; ring

theorem quad_eval {i j : ℕ} (hi : i < q.s.v) (hj : j < q.s.v) : (q.quad i j).eval (fun _ i _ => x i) = x i * x j := by
  rw [QData.quad, eval_at, Mat.ev_mul, Mat.ev_mul, mul_at, ← quad_sum x hi hj]
  show ∑ b ∈ Finset.range q.s.v, _ = _
  rw [Finset.sum_comm]
  refine Finset.sum_congr rfl fun b hb => ?_
  rw [show (q.vecV.ev fun _ i _ => x i).at_ b 0 = x b from vecV_at x (Finset.mem_range.1 hb), mul_at, Finset.sum_mul]
  show ∑ a ∈ Finset.range q.vecV.rows, _ = _
  rw [vecV_rows]
  refine Finset.sum_congr rfl fun a ha => ?_
  rw [show (q.vecV.T.ev fun _ i _ => x i).at_ 0 a = x a from vecV_at x (Finset.mem_range.1 ha)]
  show x a * ((symmProdOneHot q.s.v i j).at_ a b : ℝ) * x b = _
  ring

theorem oneHot_eval {i : ℕ} (hi : i < q.s.v) :
    (((Mat.neg (oneHot q.s.v i)).T.lift.mul q.vecV).at_ 0 0).eval (fun _ i _ => x i) = - x i := by
  rw [eval_at, Mat.ev_mul, mul_at, ← sum_pick hi fun k => - x k]
  show ∑ k ∈ Finset.range q.s.v, _ = _
  refine Finset.sum_congr rfl fun b hb => ?_
  rw [show (q.vecV.ev fun _ i _ => x i).at_ b 0 = x b from vecV_at x (Finset.mem_range.1 hb)]
  show ((-(if b = i then 1 else 0) : ℚ) : ℝ) * x b = _
  split <;> simp

/-- the lower triangular matrix packed in the last block of `x` -/
noncomputable def triOf (s : QSizes) (x : ℕ → ℝ) (i k : ℕ) : ℝ := if k ≤ i then x (s.v + (s.nI + s.nE) + (startIdx i + k)) else 0

theorem map_vecP : q.vecP.map (CExp.eval fun _ i _ => x i) = pySlice (realVec q.s.x x) (q.s.v + q.s.nI + q.s.nE) q.s.x := by
  rw [QData.vecP, getVecVar, map_pySlice, map_xVec]; rfl

theorem length_vecP : (pySlice (realVec q.s.x x) (q.s.v + q.s.nI + q.s.nE) q.s.x).length = startIdx q.s.dimG := by
  rw [length_pySlice _ (by simp), QSizes.x_eq]; omega

theorem ppt_eval {k1 k2 : ℕ} (h1 : k1 < q.s.dimG) (h2 : k2 < q.s.dimG) :
    (getPPtElement q.vecP k1 k2).eval (fun _ i _ => x i) = ∑ k ∈ Finset.range q.s.dimG, triOf q.s x k1 k * triOf q.s x k2 k := by
  rw [eval_getPPtElement, map_vecP, getPPtElement_eq (length_vecP x) h1 h2]
  have : ∀ i k, i < q.s.dimG → unpack (pySlice (realVec q.s.x x) (q.s.v + q.s.nI + q.s.nE) q.s.x) i k = triOf q.s x i k := by
    intro i k hi
    rw [unpack, triOf]
    split
    · have := startIdx_lt hi
      rw [getD_slice _ (by rw [QSizes.x_eq]; omega) le_rfl]
      congr 1; omega
    · rfl
  exact Finset.sum_congr rfl fun k _ => by rw [this _ _ h1, this _ _ h2]

theorem diag_eval {i : ℕ} (h : i < q.s.dimG) :
    (((diagSel q.s.dimG).mul (Mat.ofList q.vecP)).at_ i 0).eval (fun _ i _ => x i) = triOf q.s x i i := by
  rw [eval_at, Mat.ev_mul, ev_diagSel, Mat.ev_ofList, map_vecP, diagSel_mul h, triOf, if_pos le_rfl]
  have := startIdx_lt h
  simp only [Mat.ofList]
  rw [getD_slice _ (by rw [QSizes.x_eq]; omega) le_rfl]
  congr 1; omega

/-! The matrix formulation -/

theorem ev_xCol : q.xCol.ev (fun _ i _ => x i) = Mat.ofList (realVec q.s.x x) := by rw [QData.xCol, Mat.ev_ofList, map_xVec]

theorem Iv_mul {j : ℕ} (hj : j < q.s.v) : ((q.Iv.ev fun _ i _ => x i).mul (Mat.ofList (realVec q.s.x x))).at_ j 0 = x j := by
  rw [QData.Iv, ev_getVecVarM, getVecVarM, selMatrix_mul _ (by simpa [QSizes.vI] using hj)]
  simp only [Mat.ofList, QSizes.vI]
  rw [Nat.zero_add, getD_realVec (by rw [QSizes.x_eq]; omega)]

theorem ILN_mul {j : ℕ} (hj : j < q.s.nI + q.s.nE) : ((q.ILN.ev fun _ i _ => x i).mul (Mat.ofList (realVec q.s.x x))).at_ j 0 = x (q.s.v + j) := by
  rw [QData.ILN, ev_getVecVarM, getVecVarM, selMatrix_mul _ (by simp only [QSizes.lambNuI]; omega)]
  simp only [Mat.ofList, QSizes.lambNuI]
  rw [getD_realVec (by rw [QSizes.x_eq]; omega)]

theorem mul_assoc_at (A B X : Mat ℝ) (i j : ℕ) : ((A.mul B).mul X).at_ i j = ∑ k ∈ Finset.range A.cols, A.at_ i k * (B.mul X).at_ k j := by
  rw [mul_at]
  show ∑ k ∈ Finset.range B.cols, _ = _
  simp only [mul_at, Finset.sum_mul, Finset.mul_sum]
  rw [Finset.sum_comm]
  exact Finset.sum_congr rfl fun a _ => Finset.sum_congr rfl fun b _ => by ring

theorem lin_evalM (m : Mat ℚ) (hm : m.cols = q.s.v) (k : ℕ) :
    ((((m.row k).lift.mul q.Iv).mul q.xCol).at_ 0 0).eval (fun _ i _ => x i) = linVal q.s m k x := by
  rw [eval_at, Mat.ev_mul, Mat.ev_mul, ev_xCol, mul_assoc_at, linVal]
  show ∑ j ∈ Finset.range m.cols, _ = _
  rw [hm]
  refine Finset.sum_congr rfl fun j hj => ?_
  rw [Iv_mul x (Finset.mem_range.1 hj)]
  rfl

theorem Iv_cols : (q.Iv.ev fun _ i _ => x i).cols = (Mat.ofList (realVec q.s.x x)).rows := by
  rw [QData.Iv, ev_getVecVarM, getVecVarM, selMatrix_cols]
  simp only [QSizes.vI, Mat.ofList, length_realVec, QSizes.x_eq]; omega

theorem ILN_cols : (q.ILN.ev fun _ i _ => x i).cols = (Mat.ofList (realVec q.s.x x)).rows := by
  rw [QData.ILN, ev_getVecVarM, getVecVarM, selMatrix_cols]
  simp only [QSizes.lambNuI, Mat.ofList, length_realVec, QSizes.x_eq]; omega

theorem Iv_rows : (q.Iv.ev fun _ i _ => x i).rows = q.s.v := rfl
theorem ILN_rows : (q.ILN.ev fun _ i _ => x i).rows = q.s.nI + q.s.nE := by
  show q.s.v + q.s.nI + q.s.nE - q.s.v = _
  omega

theorem bil_evalM (m : Mat ℚ) (hr : m.rows = q.s.nI + q.s.nE) (hc : m.cols = q.s.v) :
    ((((q.ILN.T.mul m.lift).mul q.Iv).mul q.xX).trace).eval (fun _ i _ => x i) = bilVal q.s m x := by
  rw [Mat.eval_trace, Mat.ev_mul, Mat.ev_mul, Mat.ev_mul, QData.xX, Mat.ev_mul, Mat.ev_T, Mat.ev_T, ev_xCol,
    trace_form _ _ _ _ (ILN_cols x) (Iv_cols x) (by rw [Iv_rows]; exact hc) (by rw [ILN_rows]; exact hr) rfl, ILN_rows, Iv_rows, bilVal]
  refine Finset.sum_congr rfl fun i hi => Finset.sum_congr rfl fun j hj => ?_
  rw [ILN_mul x (Finset.mem_range.1 hi), Iv_mul x (Finset.mem_range.1 hj)]
  rfl

theorem quad_evalM {i j : ℕ} (hi : i < q.s.v) (hj : j < q.s.v) : (q.quadM i j).eval (fun _ i _ => x i) = x i * x j := by
  rw [QData.quadM, Mat.eval_trace, Mat.ev_mul, Mat.ev_mul, Mat.ev_mul, QData.xX, Mat.ev_mul, Mat.ev_T, Mat.ev_T, ev_xCol,
    trace_form _ _ _ _ (Iv_cols x) (Iv_cols x) (by rw [Iv_rows]; rfl) (by rw [Iv_rows]; rfl) rfl, Iv_rows, ← quad_sum x hi hj]
  refine Finset.sum_congr rfl fun i hi => Finset.sum_congr rfl fun j hj => ?_
  rw [Iv_mul x (Finset.mem_range.1 hi), Iv_mul x (Finset.mem_range.1 hj)]
  rfl

theorem oneHot_evalM {i : ℕ} (hi : i < q.s.v) :
    ((((Mat.neg (oneHot q.s.v i)).T.lift.mul q.Iv).mul q.xCol).at_ 0 0).eval (fun _ i _ => x i) = - x i := by
  rw [eval_at, Mat.ev_mul, Mat.ev_mul, ev_xCol, mul_assoc_at, ← sum_pick hi fun k => - x k]
  show ∑ k ∈ Finset.range q.s.v, _ = _
  refine Finset.sum_congr rfl fun b hb => ?_
  rw [Iv_mul x (Finset.mem_range.1 hb)]
  show ((-(if b = i then 1 else 0) : ℚ) : ℝ) * x b = _
  split <;> simp

theorem ev_getPPtMatrix (n ps k1 k2 : ℕ) (σ : ℕ → ℕ → ℕ → ℝ) :
    ((getPPtMatrix n ps k1 k2 : Mat CExp × Mat CExp).1.ev σ = (getPPtMatrix n ps k1 k2).1) ∧
    ((getPPtMatrix n ps k1 k2 : Mat CExp × Mat CExp).2.ev σ = (getPPtMatrix n ps k1 k2).2) := ⟨ev_selMatrix _ _ _ _, ev_selMatrix _ _ _ _⟩

theorem ppt_evalM {k1 k2 : ℕ} (h1 : k1 < q.s.dimG) (h2 : k2 < q.s.dimG) :
    ((((getPPtMatrix q.s.x q.s.pI.start k1 k2).1.T.mul (getPPtMatrix q.s.x q.s.pI.start k1 k2).2).mul q.xX).trace).eval (fun _ i _ => x i) =
      (getPPtElement q.vecP k1 k2).eval (fun _ i _ => x i) := by
  rw [Mat.eval_trace, Mat.ev_mul, Mat.ev_mul, Mat.ev_T, (ev_getPPtMatrix _ _ _ _ _).1, (ev_getPPtMatrix _ _ _ _ _).2, QData.xX, Mat.ev_mul,
    Mat.ev_T, ev_xCol, eval_getPPtElement, map_vecP]
  have := C23_matrix (realVec q.s.x x) (ps := q.s.pI.start) (n := q.s.dimG) (k1 := k1) (k2 := k2)
    (by rw [length_realVec]; rfl) h1 h2
  rw [length_realVec] at this
  exact this

theorem diag_evalM {i : ℕ} (h : i < q.s.dimG) :
    ((((diagSel q.s.dimG).mul q.IP).mul q.xCol).at_ i 0).eval (fun _ i _ => x i) = triOf q.s x i i := by
  rw [eval_at, Mat.ev_mul, Mat.ev_mul, ev_diagSel, ev_xCol, mul_assoc_at]
  have := startIdx_lt h
  rw [show ∑ k ∈ Finset.range (diagSel (α := ℝ) q.s.dimG).cols, (diagSel (α := ℝ) q.s.dimG).at_ i k *
    ((q.IP.ev fun _ i _ => x i).mul (Mat.ofList (realVec q.s.x x))).at_ k 0 =
    ((diagSel (α := ℝ) q.s.dimG).mul ((q.IP.ev fun _ i _ => x i).mul (Mat.ofList (realVec q.s.x x)))).at_ i 0 from (mul_at _ _ _ _).symm,
    diagSel_mul h, QData.IP, ev_getVecVarM, getVecVarM, selMatrix_mul _ (by simp only [QSizes.pI]; rw [QSizes.x_eq]; omega), triOf, if_pos le_rfl]
  simp only [Mat.ofList, QSizes.pI]
  rw [getD_realVec (by rw [QSizes.x_eq]; omega)]
  congr 1; omega

end vals

end Verif
