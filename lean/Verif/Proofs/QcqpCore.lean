import Verif.Proofs.Qcqp

/-!
# Both QCQP formulations have the same solutions
-/

namespace Verif

variable {C : CAS} {sm : SymMats} {dimG dimF : ℕ} {params : List Name} {bounds : List Bound}

theorem padTo_inv {m : Coeff} {rows n : ℕ} {r : Mat ℚ} (h : padTo m rows n = .ok r) :
    m.cols ≤ n ∧ r = ⟨rows, n, fun i j => if j < m.cols then m.at_ i j else 0⟩ := by
  rw [padTo] at h
  split at h
  · injection h with h; exact ⟨by assumption, h.symm⟩
  · cases h

theorem stackVectors_inv {vs : List Coeff} {n : ℕ} {r : ℕ → Mat ℚ} (h : stackVectors vs n = .ok r) :
    (∀ c ∈ vs, c.cols ≤ n) ∧ r = fun k => ⟨vs.length, n, fun i j => match vs[i]? with
      | some c => if j < c.cols then c.at_ k j else 0
      | none => 0⟩ := by
  rw [stackVectors] at h
  split at h
  · cases h
  · split at h
    · rename_i h2
      injection h with h
      exact ⟨fun c hc => by simpa using List.all_eq_true.1 h2 c hc, h.symm⟩
    · cases h

theorem qStack_inv {cons : List Coeff} {obj : Coeff} {rows v n : ℕ} {r : Mat ℚ × (ℕ → Mat ℚ)} (h : qStack cons obj rows v n = .ok r) :
    padTo obj rows v = .ok r.1 ∧ stackVectors cons v = .ok r.2 ∧ cons.length = n := by
  rw [qStack] at h
  obtain ⟨o, h1, h⟩ := Except.bind_ok_iff.1 h
  obtain ⟨s, h2, h⟩ := Except.bind_ok_iff.1 h
  split at h
  · injection h with h; subst h; exact ⟨h1, h2, by assumption⟩
  · cases h

/-- what `qData` is made from -/
structure QData.From (C : CAS) (sm : SymMats) (dimG dimF : ℕ) (params : List Name) (q : QData) (cs : List (Coeff × Coeff)) (co : Coeff × Coeff) :
    Prop where
  coeff : spCoeffMatrix C sm.spExp params dimG dimF = .ok (q.tab, cs ++ [co])
  s : q.s = ⟨q.tab.names.length, sm.nI, sm.nE, dimG⟩
  len : cs.length = sm.nI + sm.nE
  objF : padTo co.1 dimF q.tab.names.length = .ok q.objF
  objG : padTo co.2 (dimG * dimG) q.tab.names.length = .ok q.objG
  sumF : stackVectors (cs.map Prod.fst) q.tab.names.length = .ok q.sumF
  sumG : stackVectors (cs.map Prod.snd) q.tab.names.length = .ok q.sumG

theorem qData_inv {q : QData} (h : qData C sm dimG dimF params = .ok q) : ∃ cs co, q.From C sm dimG dimF params cs co := by
  rw [qData] at h
  obtain ⟨r, h1, h⟩ := Except.bind_ok_iff.1 h
  obtain ⟨-, h2, h⟩ := Except.bind_ok_iff.1 h
  simp only at h
  split at h
  · rename_i c hc
    obtain ⟨c', hc', h⟩ := Except.bind_ok_iff.1 h
    injection hc' with hc'
    subst hc'
    obtain ⟨f, h3, h⟩ := Except.bind_ok_iff.1 h
    obtain ⟨g, h4, h⟩ := Except.bind_ok_iff.1 h
    injection h with h
    subst h
    obtain ⟨a1, a2, a3⟩ := qStack_inv h3
    obtain ⟨b1, b2, b3⟩ := qStack_inv h4
    refine ⟨r.2.dropLast, c, ?_, rfl, by simpa using a3, a1, b1, a2, b2⟩
    have : r.2 = r.2.dropLast ++ [c] := by
      obtain ⟨l, hl⟩ := List.getLast?_eq_some_iff.1 hc
      rw [hl]; simp
    rw [← this, h1]
  · cases h

theorem QData.From.shaped {q : QData} {cs : List (Coeff × Coeff)} {co : Coeff × Coeff} (f : q.From C sm dimG dimF params cs co) : q.Shaped := by
  obtain ⟨a1, a2⟩ := padTo_inv f.objF
  obtain ⟨b1, b2⟩ := padTo_inv f.objG
  obtain ⟨c1, c2⟩ := stackVectors_inv f.sumF
  obtain ⟨d1, d2⟩ := stackVectors_inv f.sumG
  refine ⟨?_, ?_, ?_, ?_, ?_, ?_⟩
  · rw [a2, f.s]
  · rw [b2, f.s]
  · intro k; rw [c2, f.s]; simpa using f.len
  · intro k; rw [c2, f.s]
  · intro k; rw [d2, f.s]; simpa using f.len
  · intro k; rw [d2, f.s]

theorem lookup_ok {tab : VTab} {n : Name} {i : ℕ} : tab.lookup n = .ok i ↔ tab.idx.get? (.str n) = some i := by
  rw [VTab.lookup]
  split <;> simp_all

theorem productIdx_ok {tab : VTab} {s : Name} {p : ℕ × ℕ × ℕ} (h : productIdx tab (.str s) = .ok (some p)) :
    (splitU s).length ≠ 1 ∧ tab.lookup s = .ok p.1 ∧ tab.lookup ((splitU s).getLastD "") = .ok p.2.1 ∧
      tab.lookup (joinU (splitU s).dropLast) = .ok p.2.2 := by
  rw [productIdx] at h
  split at h
  · injection h with h; cases h
  · obtain ⟨i, h1, h⟩ := Except.bind_ok_iff.1 h
    obtain ⟨j, h2, h⟩ := Except.bind_ok_iff.1 h
    obtain ⟨k, h3, h⟩ := Except.bind_ok_iff.1 h
    injection h with h; injection h with h; subst h
    exact ⟨by assumption, h1, h2, h3⟩

theorem productCons_holds {tab : VTab} {mk : ℕ → ℕ → ℕ → Constr} {P : Constr → Prop} : ∀ {names : List VName} {cs : List Constr},
    productCons tab mk names = .ok cs →
    ((∀ c ∈ cs, P c) ↔ ∀ n ∈ names, ∀ p, productIdx tab n = .ok (some p) → P (mk p.1 p.2.1 p.2.2)) := by
  intro names
  induction names with
  | nil => intro cs h; injection h with h; subst h; simp
  | cons n names ih =>
    intro cs h
    rw [productCons] at h
    obtain ⟨p, h1, h⟩ := Except.bind_ok_iff.1 h
    obtain ⟨cs', h2, h⟩ := Except.bind_ok_iff.1 h
    have ih := ih h2
    cases p with
    | none =>
      injection h with h; subst h
      rw [ih]
      simp only [List.mem_cons, forall_eq_or_imp]
      constructor
      · intro hh; exact ⟨fun p hp => by (rw [h1] at hp; injection hp with hp; cases hp), hh⟩
      · intro hh; exact hh.2
    | some p =>
      injection h with h; subst h
      simp only [List.mem_cons, forall_eq_or_imp]
      rw [ih]
      constructor
      · rintro ⟨a, b⟩
        refine ⟨fun p' hp => ?_, b⟩
        rw [h1] at hp; injection hp with hp; injection hp with hp; subst hp; exact a
      · rintro ⟨a, b⟩
        exact ⟨a p h1, b⟩

theorem productCons_ok {tab : VTab} {mk mk' : ℕ → ℕ → ℕ → Constr} : ∀ {names : List VName} {cs : List Constr}, productCons tab mk names = .ok cs →
    (∀ n ∈ names, ∃ p, productIdx tab n = .ok p) ∧ ∃ cs', productCons tab mk' names = .ok cs' := by
  intro names
  induction names with
  | nil => intro cs h; exact ⟨by simp, _, rfl⟩
  | cons n names ih =>
    intro cs h
    rw [productCons] at h
    obtain ⟨p, h1, h⟩ := Except.bind_ok_iff.1 h
    obtain ⟨cs', h2, h⟩ := Except.bind_ok_iff.1 h
    obtain ⟨a, c, b⟩ := ih h2
    refine ⟨?_, ?_⟩
    · simp only [List.mem_cons, forall_eq_or_imp]
      exact ⟨⟨p, h1⟩, a⟩
    · rw [productCons, h1]
      show ∃ cs', (productCons tab mk' names >>= _) = _
      rw [b]
      cases p <;> exact ⟨_, rfl⟩

theorem invCons_holds {tab : VTab} {mk : ℕ → ℕ → Constr} {P : Constr → Prop} : ∀ {names : List Name} {cs : List Constr},
    invCons tab mk names = .ok cs →
    ((∀ c ∈ cs, P c) ↔ ∀ n ∈ names, ∀ i ii, tab.lookup n = .ok i → tab.lookup ("inv" ++ n) = .ok ii →
      P (mk i ii) ∧ P (.ge (xv i) (.num (1 / 10000000)))) := by
  intro names
  induction names with
  | nil => intro cs h; injection h with h; subst h; simp
  | cons n names ih =>
    intro cs h
    rw [invCons] at h
    obtain ⟨i, h1, h⟩ := Except.bind_ok_iff.1 h
    obtain ⟨ii, h2, h⟩ := Except.bind_ok_iff.1 h
    obtain ⟨cs', h3, h⟩ := Except.bind_ok_iff.1 h
    have ih := ih h3
    injection h with h; subst h
    simp only [List.mem_cons, forall_eq_or_imp]
    rw [ih]
    constructor
    · rintro ⟨a, b, c⟩
      refine ⟨fun i' ii' e1 e2 => ?_, c⟩
      rw [h1] at e1; rw [h2] at e2
      injection e1 with e1; injection e2 with e2
      subst e1; subst e2; exact ⟨a, b⟩
    · rintro ⟨a, c⟩
      exact ⟨(a i ii h1 h2).1, (a i ii h1 h2).2, c⟩

theorem invCons_ok {tab : VTab} {mk mk' : ℕ → ℕ → Constr} : ∀ {names : List Name} {cs : List Constr},
    invCons tab mk names = .ok cs →
    (∀ n ∈ names, ∃ i ii, tab.lookup n = .ok i ∧ tab.lookup ("inv" ++ n) = .ok ii) ∧ ∃ cs', invCons tab mk' names = .ok cs' := by
  intro names
  induction names with
  | nil => intro cs h; exact ⟨by simp, _, rfl⟩
  | cons n names ih =>
    intro cs h
    rw [invCons] at h
    obtain ⟨i, h1, h⟩ := Except.bind_ok_iff.1 h
    obtain ⟨ii, h2, h⟩ := Except.bind_ok_iff.1 h
    obtain ⟨cs', h3, h⟩ := Except.bind_ok_iff.1 h
    obtain ⟨a, c, b⟩ := ih h3
    refine ⟨?_, ?_⟩
    · simp only [List.mem_cons, forall_eq_or_imp]
      exact ⟨⟨i, ii, h1, h2⟩, a⟩
    · rw [invCons, h1]
      show ∃ cs', (tab.lookup ("inv" ++ n) >>= _) = _
      rw [h2]
      show ∃ cs', (invCons tab mk' names >>= _) = _
      rw [b]
      exact ⟨_, rfl⟩

theorem lowerCons_holds {tab : VTab} {P : Constr → Prop} : ∀ {names : List Name} {cs : List Constr}, lowerCons tab names = .ok cs →
    ((∀ c ∈ cs, P c) ↔ ∀ n ∈ names, ∀ i, tab.lookup n = .ok i → P (.ge (xv i) (.num (1 / 10000000)))) := by
  intro names
  induction names with
  | nil => intro cs h; injection h with h; subst h; simp
  | cons n names ih =>
    intro cs h
    rw [lowerCons] at h
    obtain ⟨i, h1, h⟩ := Except.bind_ok_iff.1 h
    obtain ⟨cs', h3, h⟩ := Except.bind_ok_iff.1 h
    have ih := ih h3
    injection h with h; subst h
    simp only [List.mem_cons, forall_eq_or_imp]
    rw [ih]
    constructor
    · rintro ⟨a, c⟩
      refine ⟨fun i' e1 => ?_, c⟩
      rw [h1] at e1
      injection e1 with e1
      subst e1; exact a
    · rintro ⟨a, c⟩
      exact ⟨a i h1, c⟩

theorem lowerCons_ok {tab : VTab} : ∀ {names : List Name} {cs : List Constr}, lowerCons tab names = .ok cs →
    ∀ n ∈ names, ∃ i, tab.lookup n = .ok i := by
  intro names
  induction names with
  | nil => intro cs h; simp
  | cons n names ih =>
    intro cs h
    rw [lowerCons] at h
    obtain ⟨i, h1, h⟩ := Except.bind_ok_iff.1 h
    obtain ⟨cs', h3, h⟩ := Except.bind_ok_iff.1 h
    simp only [List.mem_cons, forall_eq_or_imp]
    exact ⟨⟨i, h1⟩, ih h3⟩

/-- the equations in terms of the entries of `x`, common to both formulations -/
structure QData.Core (q : QData) (dimF : ℕ) (params : List Name) (bs : List Constr) (x : ℕ → ℝ) : Prop where
  one : x 0 = 1
  F : ∀ k < dimF, linVal q.s q.objF k x - bilVal q.s (q.sumF k) x = 0
  G : ∀ k1 < q.s.dimG, ∀ k2 < q.s.dimG, linVal q.s q.objG (k1 * q.s.dimG + k2) x +
    ∑ k ∈ Finset.range q.s.dimG, triOf q.s x k1 k * triOf q.s x k2 k - bilVal q.s (q.sumG (k1 * q.s.dimG + k2)) x = 0
  prod : ∀ n ∈ q.tab.names.drop 1, ∀ p, productIdx q.tab n = .ok (some p) → x p.2.1 * x p.2.2 - x p.1 = 0
  inv : ∀ v ∈ invParams params, ∀ i ii, q.tab.lookup v = .ok i → q.tab.lookup ("inv" ++ v) = .ok ii → x i * x ii = 1 ∧ 1 / 10000000 ≤ x i
  bounds : ∀ c ∈ bs, c.Holds fun _ i _ => x i
  lamb : ∀ i < q.s.nI, 0 ≤ x (q.s.v + i)
  diag : ∀ i < q.s.dimG, 0 ≤ triOf q.s x i i

/-- names of the table have indices below its length -/
def QData.Bounded (q : QData) : Prop := ∀ n i, q.tab.lookup n = .ok i → i < q.s.v

theorem mem_loopPairs' {n : ℕ} {p : ℕ × ℕ} : p ∈ loopPairs n ↔ p.1 < n ∧ p.2 < n := by
  obtain ⟨a, b⟩ := p
  simp [loopPairs]

theorem holds_eq_iff {σ : ℕ → ℕ → ℕ → ℝ} {a b : CExp} : (Constr.eq a b).Holds σ ↔ a.eval σ = b.eval σ := Iff.rfl
theorem holds_ge_iff {σ : ℕ → ℕ → ℕ → ℝ} {a b : CExp} : (Constr.ge a b).Holds σ ↔ b.eval σ ≤ a.eval σ := Iff.rfl

theorem low_holds {x : ℕ → ℝ} {i : ℕ} : (Constr.ge (xv i) (.num (1 / 10000000))).Holds (fun _ i _ => x i) ↔ 1 / 10000000 ≤ x i := by
  rw [holds_ge_iff]
  show ((1 / 10000000 : ℚ) : ℝ) ≤ x i ↔ _
  push_cast; rfl

variable {q : QData}

theorem lambCons_holds {x : ℕ → ℝ} : (∀ c ∈ q.lambCons, c.Holds fun _ i _ => x i) ↔ ∀ i < q.s.nI, 0 ≤ x (q.s.v + i) := by
  rw [QData.lambCons]
  have hl : ∀ k, (getVecVar (xVec q.s.x) q.s.lambI)[k]? = if k < q.s.nI then some (xv (q.s.v + k)) else none := by
    intro k
    rw [getVecVar, getElem?_pySlice]
    have e : q.s.lambI.stop - q.s.lambI.start = q.s.nI := by simp only [QSizes.lambI]; omega
    by_cases hk : k < q.s.nI
    · rw [if_pos (by omega), if_pos hk, xVec, List.getElem?_map, show q.s.lambI.start + k = q.s.v + k from rfl,
        List.getElem?_range (by rw [QSizes.x_eq]; omega)]; rfl
    · rw [if_neg (by omega), if_neg hk]
  constructor
  · intro h i hi
    have := h (.ge (xv (q.s.v + i)) 0) (List.mem_map.2 ⟨_, List.mem_of_getElem? (by rw [hl i, if_pos hi]), rfl⟩)
    rw [holds_ge_iff, CExp.eval_zero] at this
    exact this
  · intro h c hc
    obtain ⟨y, hy, rfl⟩ := List.mem_map.1 hc
    obtain ⟨k, hk⟩ := List.getElem?_of_mem hy
    rw [hl k] at hk
    split at hk
    · injection hk with hk; subst hk
      rw [holds_ge_iff, CExp.eval_zero]
      exact h k (by assumption)
    · cases hk

theorem lambConsM_holds {x : ℕ → ℝ} : (∀ c ∈ q.lambConsM, c.Holds fun _ i _ => x i) ↔ ∀ i < q.s.nI, 0 ≤ x (q.s.v + i) := by
  have hr : (getVecVarM (α := CExp) q.s.x q.s.lambI).rows = q.s.nI := by show q.s.v + q.s.nI - q.s.v = _; omega
  rw [QData.lambConsM, hr, List.forall_mem_map]
  simp only [List.mem_range]
  refine forall₂_congr fun i hi => ?_
  rw [holds_ge_iff, CExp.eval_zero, eval_at, Mat.ev_mul, ev_getVecVarM, ev_xCol, getVecVarM, selMatrix_mul _ (by simp only [QSizes.lambI]; omega)]
  simp only [Mat.ofList, QSizes.lambI]
  rw [getD_realVec (by rw [QSizes.x_eq]; omega)]

theorem diagCons_holds {x : ℕ → ℝ} : (∀ c ∈ q.diagCons, c.Holds fun _ i _ => x i) ↔ ∀ i < q.s.dimG, 0 ≤ triOf q.s x i i := by
  rw [QData.diagCons, List.forall_mem_map]
  simp only [List.mem_range]
  refine forall₂_congr fun i hi => ?_
  rw [holds_ge_iff, CExp.eval_zero, diag_eval x hi]

theorem diagConsM_holds {x : ℕ → ℝ} : (∀ c ∈ q.diagConsM, c.Holds fun _ i _ => x i) ↔ ∀ i < q.s.dimG, 0 ≤ triOf q.s x i i := by
  rw [QData.diagConsM, List.forall_mem_map]
  simp only [List.mem_range]
  refine forall₂_congr fun i hi => ?_
  rw [holds_ge_iff, CExp.eval_zero, diag_evalM x hi]

theorem eqF_holds (sh : q.Shaped) {x : ℕ → ℝ} : (∀ c ∈ (List.range dimF).map q.eqF, c.Holds fun _ i _ => x i) ↔
    ∀ k < dimF, linVal q.s q.objF k x - bilVal q.s (q.sumF k) x = 0 := by
  rw [List.forall_mem_map]
  simp only [List.mem_range]
  refine forall₂_congr fun k hk => ?_
  rw [QData.eqF, holds_eq_iff, CExp.eval_zero, CExp.eval_sub, lin_eval x _ sh.objF, bil_eval x _ (sh.sumFc k)]

theorem eqFM_holds (sh : q.Shaped) {x : ℕ → ℝ} : (∀ c ∈ (List.range dimF).map q.eqFM, c.Holds fun _ i _ => x i) ↔
    ∀ k < dimF, linVal q.s q.objF k x - bilVal q.s (q.sumF k) x = 0 := by
  rw [List.forall_mem_map]
  simp only [List.mem_range]
  refine forall₂_congr fun k hk => ?_
  rw [QData.eqFM, holds_eq_iff, CExp.eval_zero, CExp.eval_sub, lin_evalM x _ sh.objF, bil_evalM x _ (sh.sumFr k) (sh.sumFc k)]

theorem eqG_holds (sh : q.Shaped) {x : ℕ → ℝ} : (∀ c ∈ (loopPairs q.s.dimG).map (fun k => q.eqG k.1 k.2), c.Holds fun _ i _ => x i) ↔
    ∀ k1 < q.s.dimG, ∀ k2 < q.s.dimG, linVal q.s q.objG (k1 * q.s.dimG + k2) x +
      ∑ k ∈ Finset.range q.s.dimG, triOf q.s x k1 k * triOf q.s x k2 k - bilVal q.s (q.sumG (k1 * q.s.dimG + k2)) x = 0 := by
  rw [List.forall_mem_map]
  have : ∀ k1 < q.s.dimG, ∀ k2 < q.s.dimG, ((q.eqG k1 k2).Holds (fun _ i _ => x i) ↔ linVal q.s q.objG (k1 * q.s.dimG + k2) x +
      ∑ k ∈ Finset.range q.s.dimG, triOf q.s x k1 k * triOf q.s x k2 k - bilVal q.s (q.sumG (k1 * q.s.dimG + k2)) x = 0) := by
    intro k1 h1 k2 h2
    rw [QData.eqG, holds_eq_iff, CExp.eval_zero, CExp.eval_sub, CExp.eval_add, lin_eval x _ sh.objG, bil_eval x _ (sh.sumGc _), ppt_eval x h1 h2]
  constructor
  · intro h k1 h1 k2 h2; exact (this k1 h1 k2 h2).1 (h (k1, k2) (mem_loopPairs'.2 ⟨h1, h2⟩))
  · rintro h ⟨k1, k2⟩ hk
    have hk := mem_loopPairs'.1 hk
    exact (this k1 hk.1 k2 hk.2).2 (h k1 hk.1 k2 hk.2)

theorem eqGM_holds (sh : q.Shaped) {x : ℕ → ℝ} : (∀ c ∈ (loopPairs q.s.dimG).map (fun k => q.eqGM k.1 k.2), c.Holds fun _ i _ => x i) ↔
    ∀ k1 < q.s.dimG, ∀ k2 < q.s.dimG, linVal q.s q.objG (k1 * q.s.dimG + k2) x +
      ∑ k ∈ Finset.range q.s.dimG, triOf q.s x k1 k * triOf q.s x k2 k - bilVal q.s (q.sumG (k1 * q.s.dimG + k2)) x = 0 := by
  rw [List.forall_mem_map]
  have : ∀ k1 < q.s.dimG, ∀ k2 < q.s.dimG, ((q.eqGM k1 k2).Holds (fun _ i _ => x i) ↔ linVal q.s q.objG (k1 * q.s.dimG + k2) x +
      ∑ k ∈ Finset.range q.s.dimG, triOf q.s x k1 k * triOf q.s x k2 k - bilVal q.s (q.sumG (k1 * q.s.dimG + k2)) x = 0) := by
    intro k1 h1 k2 h2
    rw [QData.eqGM, holds_eq_iff, CExp.eval_zero, CExp.eval_sub, CExp.eval_add, lin_evalM x _ sh.objG, bil_evalM x _ (sh.sumGr _) (sh.sumGc _),
      ppt_evalM x h1 h2, ppt_eval x h1 h2]
  constructor
  · intro h k1 h1 k2 h2; exact (this k1 h1 k2 h2).1 (h (k1, k2) (mem_loopPairs'.2 ⟨h1, h2⟩))
  · rintro h ⟨k1, k2⟩ hk
    have hk := mem_loopPairs'.1 hk
    exact (this k1 hk.1 k2 hk.2).2 (h k1 hk.1 k2 hk.2)

theorem one_holds {x : ℕ → ℝ} : (∀ c ∈ [Constr.eq (xv 0) (.num 1)], c.Holds fun _ i _ => x i) ↔ x 0 = 1 := by
  simp only [List.mem_singleton, forall_eq]
  rw [holds_eq_iff]
  show x 0 = ((1 : ℚ) : ℝ) ↔ _
  push_cast; rfl

theorem prod_holds (hb : q.Bounded) {x : ℕ → ℝ} {n : VName} {p : ℕ × ℕ × ℕ} (h : productIdx q.tab n = .ok (some p)) :
    (q.productCon p.1 p.2.1 p.2.2).Holds (fun _ i _ => x i) ↔ x p.2.1 * x p.2.2 - x p.1 = 0 := by
  cases n with
  | one => cases h
  | str s =>
    obtain ⟨-, h1, h2, h3⟩ := productIdx_ok h
    rw [QData.productCon, holds_eq_iff, CExp.eval_zero, CExp.eval_add, quad_eval x (hb _ _ h2) (hb _ _ h3), oneHot_eval x (hb _ _ h1), sub_eq_add_neg]

theorem prod_holdsM (hb : q.Bounded) {x : ℕ → ℝ} {n : VName} {p : ℕ × ℕ × ℕ} (h : productIdx q.tab n = .ok (some p)) :
    (q.productConM p.1 p.2.1 p.2.2).Holds (fun _ i _ => x i) ↔ x p.2.1 * x p.2.2 - x p.1 = 0 := by
  cases n with
  | one => cases h
  | str s =>
    obtain ⟨-, h1, h2, h3⟩ := productIdx_ok h
    rw [QData.productConM, holds_eq_iff, CExp.eval_zero, CExp.eval_add, quad_evalM x (hb _ _ h2) (hb _ _ h3), oneHot_evalM x (hb _ _ h1), sub_eq_add_neg]

theorem forall_mem_append' {α : Type} {l1 l2 : List α} {P : α → Prop} : (∀ c ∈ l1 ++ l2, P c) ↔ (∀ c ∈ l1, P c) ∧ ∀ c ∈ l2, P c := List.forall_mem_append

/-- the vector formulation -/
theorem qcqpNlp_core {extra : ℕ} {goal : Sym} {r : Qcqp} (h : qcqpNlp C sm dimG dimF params bounds extra goal = .ok r) :
    ∃ q bs, qData C sm dimG dimF params = .ok q ∧ r.tab = q.tab ∧ r.s = q.s ∧ addBounds (qLook q.tab q.s.x) bounds none = .ok bs ∧
      (∀ n ∈ ["eta", "h", "rho", "gamma"], ∃ i, q.tab.lookup n = .ok i) ∧ (∃ e, q.tab.expr C goal = .ok e ∧ r.obj = .mul (.num (-1)) e) ∧
      (∀ n ∈ q.tab.names.drop 1, ∃ p, productIdx q.tab n = .ok p) ∧
      (∀ n ∈ invParams params, ∃ i ii, q.tab.lookup n = .ok i ∧ q.tab.lookup ("inv" ++ n) = .ok ii) ∧
      (∃ rm, qcqpMatrixNlp C sm dimG dimF params bounds goal = .ok rm) ∧
      (q.Bounded → q.s.dimG = dimG → ∀ x : ℕ → ℝ, r.Sat x ↔ q.Core dimF params bs x ∧
        ∀ n ∈ ["eta", "h", "rho", "gamma"], ∀ i, q.tab.lookup n = .ok i → 1 / 10000000 ≤ x i) := by
  rw [qcqpNlp] at h
  obtain ⟨q, h1, h⟩ := Except.bind_ok_iff.1 h
  obtain ⟨bs, h2, h⟩ := Except.bind_ok_iff.1 h
  obtain ⟨low, h3, h⟩ := Except.bind_ok_iff.1 h
  obtain ⟨prods, h4, h⟩ := Except.bind_ok_iff.1 h
  obtain ⟨invs, h5, h⟩ := Except.bind_ok_iff.1 h
  obtain ⟨eta, h6, h⟩ := Except.bind_ok_iff.1 h
  injection h with h
  subst h
  obtain ⟨a1, pr, a2⟩ := productCons_ok (mk' := q.productConM) h4
  obtain ⟨b1, ir, b2⟩ := invCons_ok (mk' := q.invConM) h5
  refine ⟨q, bs, h1, rfl, rfl, h2, lowerCons_ok h3, ⟨eta, h6, rfl⟩, a1, b1, ?_, ?_⟩
  · rw [qcqpMatrixNlp, h1]
    show ∃ rm, (productCons q.tab q.productConM (q.tab.names.drop 1) >>= _) = _
    rw [a2]
    show ∃ rm, (invCons q.tab q.invConM (invParams params) >>= _) = _
    rw [b2]
    show ∃ rm, (addBounds _ _ _ >>= _) = _
    rw [h2]
    show ∃ rm, (q.tab.expr C goal >>= _) = _
    rw [h6]
    exact ⟨_, rfl⟩
  · rintro hb rfl x
    obtain ⟨cs, co, fr⟩ := qData_inv h1
    have sh := fr.shaped
    rw [Qcqp.Sat]
    simp only [forall_mem_append']
    rw [one_holds, eqF_holds sh, eqG_holds sh, productCons_holds h4, invCons_holds h5, lowerCons_holds h3, lambCons_holds, diagCons_holds]
    simp only [low_holds]
    constructor
    · rintro ⟨⟨⟨⟨⟨⟨⟨⟨c1, c2⟩, c3⟩, c4⟩, c5⟩, c6⟩, c7⟩, c8⟩, c9⟩
      refine ⟨⟨c1, c4, c5, fun n hn p hp => (prod_holds hb hp).1 (c6 n hn p hp), fun v hv i ii e1 e2 => ?_, c2, c8, c9⟩, c3⟩
      have := c7 v hv i ii e1 e2
      rw [QData.invCon, holds_eq_iff, CExp.eval_one, quad_eval x (hb _ _ e1) (hb _ _ e2)] at this
      exact this
    · rintro ⟨c, c3⟩
      refine ⟨⟨⟨⟨⟨⟨⟨⟨c.one, c.bounds⟩, c3⟩, c.F⟩, c.G⟩, fun n hn p hp => (prod_holds hb hp).2 (c.prod n hn p hp)⟩, fun v hv i ii e1 e2 => ?_⟩,
        c.lamb⟩, c.diag⟩
      rw [QData.invCon, holds_eq_iff, CExp.eval_one, quad_eval x (hb _ _ e1) (hb _ _ e2)]
      exact c.inv v hv i ii e1 e2

/-- the matrix formulation -/
theorem qcqpMatrixNlp_core {goal : Sym} {r : Qcqp} (h : qcqpMatrixNlp C sm dimG dimF params bounds goal = .ok r) :
    ∃ q bs, qData C sm dimG dimF params = .ok q ∧ r.tab = q.tab ∧ r.s = q.s ∧ addBounds (qLook q.tab q.s.x) bounds none = .ok bs ∧
      (∃ e, q.tab.expr C goal = .ok e ∧ r.obj = .mul (.num (-1)) e) ∧
      (∀ n ∈ q.tab.names.drop 1, ∃ p, productIdx q.tab n = .ok p) ∧
      (∀ n ∈ invParams params, ∃ i ii, q.tab.lookup n = .ok i ∧ q.tab.lookup ("inv" ++ n) = .ok ii) ∧
      (q.Bounded → q.s.dimG = dimG → ∀ x : ℕ → ℝ, r.Sat x ↔ q.Core dimF params bs x) := by
  rw [qcqpMatrixNlp] at h
  obtain ⟨q, h1, h⟩ := Except.bind_ok_iff.1 h
  obtain ⟨prods, h4, h⟩ := Except.bind_ok_iff.1 h
  obtain ⟨invs, h5, h⟩ := Except.bind_ok_iff.1 h
  obtain ⟨bs, h2, h⟩ := Except.bind_ok_iff.1 h
  obtain ⟨eta, h6, h⟩ := Except.bind_ok_iff.1 h
  injection h with h
  subst h
  obtain ⟨a1, -⟩ := productCons_ok (mk' := q.productConM) h4
  obtain ⟨b1, -⟩ := invCons_ok (mk' := q.invConM) h5
  refine ⟨q, bs, h1, rfl, rfl, h2, ⟨eta, h6, rfl⟩, a1, b1, ?_⟩
  rintro hb rfl x
  obtain ⟨cs, co, fr⟩ := qData_inv h1
  have sh := fr.shaped
  rw [Qcqp.Sat]
  simp only [forall_mem_append']
  rw [one_holds, eqFM_holds sh, eqGM_holds sh, productCons_holds h4, invCons_holds h5, lambConsM_holds, diagConsM_holds]
  simp only [low_holds]
  constructor
  · rintro ⟨⟨⟨⟨⟨⟨⟨c1, c4⟩, c5⟩, c6⟩, c7⟩, c2⟩, c8⟩, c9⟩
    refine ⟨c1, c4, c5, fun n hn p hp => (prod_holdsM hb hp).1 (c6 n hn p hp), fun v hv i ii e1 e2 => ?_, c2, c8, c9⟩
    have := c7 v hv i ii e1 e2
    rw [QData.invConM, holds_eq_iff, CExp.eval_one, quad_evalM x (hb _ _ e1) (hb _ _ e2)] at this
    exact this
  · intro c
    refine ⟨⟨⟨⟨⟨⟨⟨c.one, c.F⟩, c.G⟩, fun n hn p hp => (prod_holdsM hb hp).2 (c.prod n hn p hp)⟩, fun v hv i ii e1 e2 => ?_⟩, c.bounds⟩,
      c.lamb⟩, c.diag⟩
    rw [QData.invConM, holds_eq_iff, CExp.eval_one, quad_evalM x (hb _ _ e1) (hb _ _ e2)]
    exact c.inv v hv i ii e1 e2

end Verif
