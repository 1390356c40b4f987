import Verif.Proofs.TabExpr
import Verif.Proofs.Sdp

/-!
# The lifted point satisfies the constraints of the relaxation
-/

namespace Verif

variable {C : CAS} {sm : SymMats} {dimG dimF : ℕ} {params : List Name} {bounds : List Bound} {q : QData}

/-- the lifted point: `x`, `W = (x, 1)(x, 1)ᵀ`, `X = x xᵀ`, `Z` -/
noncomputable def liftPt (n : ℕ) (x : ℕ → ℝ) (Z : ℕ → ℕ → ℝ) : ℕ → ℕ → ℕ → ℝ
  | 0, i, _ => x i
  | 1, i, j => (if i < n then x i else 1) * (if j < n then x j else 1)
  | 2, i, j => x i * x j
  | _, i, j => Z i j

theorem IsPSD.outer (n : ℕ) (w : ℕ → ℝ) : IsPSD n fun i j => w i * w j := by
  refine ⟨fun i _ j _ => mul_comm _ _, fun v => ?_⟩
  have : ∑ i ∈ Finset.range n, ∑ j ∈ Finset.range n, w i * w j * v i * v j = (∑ i ∈ Finset.range n, w i * v i) ^ 2 := by
    rw [sq, Finset.sum_mul_sum]
    exact Finset.sum_congr rfl fun i _ => Finset.sum_congr rfl fun j _ => by ring
  rw [this]
  positivity

section
variable {n : ℕ} {x : ℕ → ℝ} {Z : ℕ → ℕ → ℝ}

theorem relaxStruct_lift (hx : x 0 = 1) (n : ℕ) : ∀ c ∈ relaxStruct n, c.Holds (liftPt n x Z) := by
  simp only [relaxStruct, List.forall_mem_append, List.forall_mem_map, List.mem_range, List.mem_singleton, forall_eq]
  refine ⟨⟨⟨⟨⟨fun i _ => ?_, fun i _ => ?_⟩, fun p hp => ?_⟩, fun i hi => ?_⟩, fun i hi => ?_⟩, ?_⟩ <;> rw [holds_eq_iff]
  · show x i * x 0 = x i; rw [hx, mul_one]
  · show x 0 * x i = x i; rw [hx, one_mul]
  · obtain ⟨h1, h2⟩ := mem_loopPairs'.1 hp
    show (if p.1 < n then x p.1 else 1) * (if p.2 < n then x p.2 else 1) = x p.1 * x p.2
    rw [if_pos h1, if_pos h2]
  · show (if n < n then x n else 1) * (if i < n then x i else 1) = x i
    rw [if_neg (lt_irrefl _), if_pos hi, one_mul]
  · show (if i < n then x i else 1) * (if n < n then x n else 1) = x i
    rw [if_neg (lt_irrefl _), if_pos hi, mul_one]
  · show (if n < n then x n else 1) * (if n < n then x n else 1) = ((1 : ℚ) : ℝ)
    rw [if_neg (lt_irrefl _)]; norm_num

theorem diagDominates_lift {v m : ℕ} {σ : ℕ → ℕ → ℕ → ℝ} (w : ℕ → ℝ) (h : ∀ i j, σ v i j = w i * w j) : ∀ c ∈ diagDominates v m, c.Holds σ := by
  simp only [diagDominates, List.forall_mem_append, List.forall_mem_map, List.mem_range]
  refine ⟨⟨fun i _ => ?_, fun p _ => ?_⟩, fun p _ => ?_⟩ <;> rw [holds_ge_iff]
  · show ((0 : ℚ) : ℝ) ≤ σ v i i
    rw [h]; push_cast; exact mul_self_nonneg _
  · show ((-1 / 2 : ℚ) : ℝ) * (σ v p.2 p.2 + σ v p.1 p.1) ≤ σ v p.1 p.2
    simp only [h]
    push_cast
    nlinarith [sq_nonneg (w p.1 + w p.2)]
  · show σ v p.1 p.2 ≤ ((1 / 2 : ℚ) : ℝ) * (σ v p.2 p.2 + σ v p.1 p.1)
    simp only [h]
    push_cast
    nlinarith [sq_nonneg (w p.1 - w p.2)]

theorem relaxLin_lift {m : Mat ℚ} (hm : m.cols = q.s.v) (k : ℕ) :
    (q.relaxLin m k).eval (liftPt q.s.rx x Z) = linVal q.s m k x := by
  rw [QData.relaxLin, eval_at, Mat.ev_mul, mul_at, linVal]
  show ∑ j ∈ Finset.range (0 + q.s.v + (q.s.rx - q.s.v)), ((((m.row k).mul (getVecVarM q.s.rx ⟨0, q.s.v⟩)).at_ 0 j : ℚ) : ℝ) * x j = _
  have hr : 0 + q.s.v + (q.s.rx - q.s.v) = q.s.rx := by rw [QSizes.rx]; omega
  have e : ∀ j < q.s.rx, ((((m.row k).mul (getVecVarM q.s.rx ⟨0, q.s.v⟩)).at_ 0 j : ℚ) : ℝ) = if j < q.s.v then (m.at_ k j : ℝ) else 0 := by
    intro j hj
    rw [mul_at]
    show ((∑ i ∈ Finset.range m.cols, m.at_ k i * (selMatrix q.s.v 0 (q.s.rx - q.s.v)).at_ i j : ℚ) : ℝ) = _
    rw [hm]
    push_cast
    by_cases hv : j < q.s.v
    · rw [if_pos hv, Finset.sum_eq_single j]
      · rw [selMatrix_at hv (by omega)]; simp
      · intro b hb hne
        rw [selMatrix_at (Finset.mem_range.1 hb) (by omega), if_neg (by omega)]; simp
      · intro hh; simp at hh; omega
    · rw [if_neg hv]
      refine Finset.sum_eq_zero fun b hb => ?_
      have := Finset.mem_range.1 hb
      rw [selMatrix_at this (by omega), if_neg (by omega)]; simp
  rw [hr, Finset.sum_congr rfl fun j hj => by rw [e j (Finset.mem_range.1 hj)]]
  rw [← Finset.sum_subset (Finset.range_subset_range.2 (show q.s.v ≤ q.s.rx by rw [QSizes.rx]; omega))]
  · exact Finset.sum_congr rfl fun j hj => by rw [if_pos (Finset.mem_range.1 hj)]
  · intro j _ hj
    rw [Finset.mem_range] at hj
    rw [if_neg hj, zero_mul]

theorem relaxTr_lift {m : Mat ℚ} (hr : m.rows = q.s.rx) (hc : m.cols = q.s.rx) :
    (q.relaxTr m).eval (liftPt q.s.rx x Z) = ∑ i ∈ Finset.range q.s.rx, ∑ k ∈ Finset.range q.s.rx, (m.at_ i k : ℝ) * (x k * x i) := by
  rw [QData.relaxTr, Mat.eval_trace, Mat.ev_mul, Mat.trace, sumTo_eq]
  show ∑ i ∈ Finset.range m.rows, _ = _
  rw [hr]
  refine Finset.sum_congr rfl fun i _ => ?_
  rw [mul_at]
  show ∑ k ∈ Finset.range m.cols, _ = _
  rw [hc]
  rfl

theorem blockQ_lift (m : Mat ℚ) : (q.relaxTr (q.blockQ m)).eval (liftPt q.s.rx x Z) = bilVal q.s m x := by
  rw [relaxTr_lift rfl rfl, bilVal]
  have hrx : q.s.rx = q.s.v + (q.s.nI + q.s.nE) := by rw [QSizes.rx]; omega
  rw [hrx, Finset.sum_range_add]
  simp only [Finset.sum_range_add (n := q.s.v)]
  have e1 : ∀ i ∈ Finset.range q.s.v, ∑ k ∈ Finset.range q.s.v, ((q.blockQ m).at_ i k : ℝ) * (x k * x i) = 0 := by
    intro i hi
    refine Finset.sum_eq_zero fun k hk => ?_
    have hi := Finset.mem_range.1 hi
    have hk := Finset.mem_range.1 hk
    simp only [QData.blockQ]
    rw [if_neg (by omega), if_neg (by omega)]; simp
  have e2 : ∀ i ∈ Finset.range q.s.v, ∀ k, ((q.blockQ m).at_ i (q.s.v + k) : ℝ) = 1 / 2 * (m.at_ k i : ℝ) := by
    intro i hi k
    have hi := Finset.mem_range.1 hi
    simp only [QData.blockQ]
    rw [if_pos ⟨hi, by omega⟩, Nat.add_sub_cancel_left]; push_cast; ring
  have e3 : ∀ i, ∀ k ∈ Finset.range q.s.v, ((q.blockQ m).at_ (q.s.v + i) k : ℝ) = 1 / 2 * (m.at_ i k : ℝ) := by
    intro i k hk
    have hk := Finset.mem_range.1 hk
    simp only [QData.blockQ]
    rw [if_neg (by omega), if_pos ⟨by omega, hk⟩, Nat.add_sub_cancel_left]; push_cast; ring
  have e4 : ∀ i k, ((q.blockQ m).at_ (q.s.v + i) (q.s.v + k) : ℝ) = 0 := by
    intro i k
    simp only [QData.blockQ]
    rw [if_neg (by omega), if_neg (by omega)]; simp
  rw [Finset.sum_congr rfl fun i hi => by rw [e1 i hi, zero_add, Finset.sum_congr rfl fun k _ => by rw [e2 i hi k]],
    Finset.sum_congr (s₁ := Finset.range (q.s.nI + q.s.nE)) rfl fun i _ => by
      rw [Finset.sum_congr rfl fun k hk => by rw [e3 i k hk], Finset.sum_congr (s₁ := Finset.range (q.s.nI + q.s.nE)) rfl fun k _ => by rw [e4 i k, zero_mul],
        Finset.sum_const_zero, add_zero]]
  rw [Finset.sum_comm, ← Finset.sum_add_distrib]
  refine Finset.sum_congr rfl fun i _ => ?_
  rw [← Finset.sum_add_distrib]
  exact Finset.sum_congr rfl fun k _ => by ring

theorem relaxProd_lift {i iv ip : ℕ} (hi : i < q.s.rx) (h1 : iv < q.s.rx) (h2 : ip < q.s.rx) :
    (q.relaxProd i iv ip).Holds (liftPt q.s.rx x Z) ↔ x ip * x iv - x i = 0 := by
  rw [QData.relaxProd, holds_eq_iff]
  show (q.relaxTr (symmProdOneHot q.s.rx ip iv)).eval _ + _ = ((0 : ℚ) : ℝ) ↔ _
  rw [relaxTr_lift rfl rfl]
  have e1 : ∑ a ∈ Finset.range q.s.rx, ∑ b ∈ Finset.range q.s.rx, ((symmProdOneHot q.s.rx ip iv).at_ a b : ℝ) * (x b * x a) = x ip * x iv := by
    rw [← quad_sum x h2 h1]
    exact Finset.sum_congr rfl fun a _ => Finset.sum_congr rfl fun b _ => by ring
  have e2 : (((Mat.neg (oneHot q.s.rx i)).T.lift.mul (rX q.s.rx)).at_ 0 0).eval (liftPt q.s.rx x Z) = - x i := by
    rw [eval_at, Mat.ev_mul, mul_at, ← sum_pick hi fun k => - x k]
    show ∑ k ∈ Finset.range q.s.rx, ((-(if k = i then 1 else 0) : ℚ) : ℝ) * x k = _
    refine Finset.sum_congr rfl fun b hb => ?_
    split <;> simp
  rw [e1, e2]
  push_cast
  rw [sub_eq_add_neg]

theorem sel_lift {a n' i : ℕ} (hi : i < n') (h : a + n' ≤ q.s.rx) :
    (((getVecVarM (α := ℚ) q.s.rx ⟨a, a + n'⟩).lift.mul (rX q.s.rx)).at_ i 0).eval (liftPt q.s.rx x Z) = x (a + i) := by
  rw [eval_at, Mat.ev_mul, mul_at]
  have hn : (⟨a, a + n'⟩ : VecIdx).stop - (⟨a, a + n'⟩ : VecIdx).start = n' := by show a + n' - a = n'; omega
  show ∑ k ∈ Finset.range (a + (a + n' - a) + (q.s.rx - (a + n'))), ((((selMatrix (a + n' - a) a (q.s.rx - (a + n'))).at_ i k : ℚ)) : ℝ) * x k = _
  rw [Nat.add_sub_cancel_left, ← sum_pick (show a + i < a + n' + (q.s.rx - (a + n')) by omega) fun k => x k]
  refine Finset.sum_congr rfl fun k hk => ?_
  rw [selMatrix_at hi (Finset.mem_range.1 hk)]
  split <;> simp

end

theorem boundCons_holds {σ : ℕ → ℕ → ℕ → ℝ} {xs : List CExp} {b : Bound} (h : ∀ e ∈ xs, b.Within (e.eval σ)) :
    ∀ c ∈ boundCons xs b, c.Holds σ := by
  intro c hc
  rw [boundCons, List.mem_append] at hc
  rcases hc with hc | hc
  · cases hb : b.ub with
    | none => rw [hb] at hc; simp at hc
    | some u =>
      rw [hb] at hc
      obtain ⟨e, he, rfl⟩ := List.mem_map.1 hc
      exact (h e he).1 u hb
  · cases hb : b.lb with
    | none => rw [hb] at hc; simp at hc
    | some l =>
      rw [hb] at hc
      obtain ⟨e, he, rfl⟩ := List.mem_map.1 hc
      exact (h e he).2 l hb

/-- the vector with the values of the monomials and the multipliers -/
noncomputable def relaxVec (sm : SymMats) (names : List VName) (env : Name → ℝ) (mult : SpKey → ℝ) (i : ℕ) : ℝ :=
  if i < names.length then (match names[i]? with | some n => n.val env | none => 0)
  else match (Dict.keys sm.spExp)[i - names.length]? with | some k => mult k | none => 0

theorem relaxScalars_ok {tab : VTab} {sc : List Constr} (h : relaxScalars tab = .ok sc) : ∃ eta hh rho alpha beta, tab.lookup "eta" = .ok eta ∧
    tab.lookup "h" = .ok hh ∧ tab.lookup "rho" = .ok rho ∧ tab.lookup "alpha" = .ok alpha ∧ tab.lookup "beta" = .ok beta ∧
    sc = [.ge (xv eta) (.num (1 / 100000)), .ge (xv hh) (.num (1 / 100000)), .ge (xv rho) (.num 0),
      .ge (xv alpha) (.num (-1)), .ge (.num 1) (xv alpha), .ge (xv beta) (.num (-1)), .ge (.num 1) (xv beta), .eq (xv 0) (.num 1)] := by
  rw [relaxScalars] at h
  obtain ⟨a, h1, h⟩ := Except.bind_ok_iff.1 h
  obtain ⟨b, h2, h⟩ := Except.bind_ok_iff.1 h
  obtain ⟨c, h3, h⟩ := Except.bind_ok_iff.1 h
  obtain ⟨d, h4, h⟩ := Except.bind_ok_iff.1 h
  obtain ⟨e, h5, h⟩ := Except.bind_ok_iff.1 h
  injection h with h
  exact ⟨a, b, c, d, e, h1, h2, h3, h4, h5, h.symm⟩

theorem relaxSdp_inv {S : Sdp} {vb : Option Name} {goal : Sym} (h : relaxSdp C sm dimG dimF params bounds vb goal = .ok S) :
    ∃ q sc prods eta, vb = none ∧ qData C sm dimG dimF params = .ok q ∧ relaxScalars q.tab = .ok sc ∧
      productCons q.tab q.relaxProd (q.tab.names.drop 1) = .ok prods ∧ q.tab.expr C goal = .ok eta ∧
      S = ⟨[(1, q.s.rx + 1), (2, q.s.rx), (3, dimG)],
      relaxStruct q.s.rx ++ diagDominates 1 (q.s.rx + 1) ++ diagDominates 2 q.s.rx ++ sc ++ cvxBounds q.tab q.s bounds ++
        (List.range dimF).map q.relaxEqF ++ (loopPairs dimG).map (fun p => q.relaxEqG p.1 p.2) ++ prods ++ q.relaxLamb,
      .mul (.num (-1)) eta⟩ := by
  rw [relaxSdp] at h
  obtain ⟨q, h1, h⟩ := Except.bind_ok_iff.1 h
  obtain ⟨sc, h2, h⟩ := Except.bind_ok_iff.1 h
  obtain ⟨prods, h3, h⟩ := Except.bind_ok_iff.1 h
  split at h
  · obtain ⟨eta, h4, h⟩ := Except.bind_ok_iff.1 h
    injection h with h
    exact ⟨q, sc, prods, eta, by assumption, h1, h2, h3, h4, h.symm⟩
  · cases h

/-- the lifted point is feasible -/
theorem relax_lift (hC : C.Lawful) (hp : params.Nodup) (hpl : ∀ n ∈ params, Plain n) (hv : ∀ km ∈ sm.spExp, ∀ n, km.2.Occurs n → n ∈ params)
    {S : Sdp} {vb : Option Name} {goal : Sym} (h : relaxSdp C sm dimG dimF params bounds vb goal = .ok S) {ents : List (SpKey × FG)} {obj : FG} (pr : sm.Prepared ents obj)
    {env : Name → ℝ} {mult : SpKey → ℝ} {Z : ℕ → ℕ → ℝ} (hZ : IsPSD dimG Z) (d : DualFeasible sm dimG dimF env mult Z)
    (he : 1 / 100000 ≤ env "eta") (hh : 1 / 100000 ≤ env "h") (hrho : 0 ≤ env "rho") (ha : |env "alpha"| ≤ 1) (hbeta : |env "beta"| ≤ 1)
    (hbo : ∀ q, qData C sm dimG dimF params = .ok q → RelaxBoundsOk sm q.tab.names dimG bounds env mult Z) :
    ∃ q, qData C sm dimG dimF params = .ok q ∧ S.Sat (liftPt q.s.rx (relaxVec sm q.tab.names env mult) Z) ∧
      S.obj.eval (liftPt q.s.rx (relaxVec sm q.tab.names env mult) Z) = - goal.eval (longEnv env) := by
  obtain ⟨q, sc, prods, eta, -, hq, hsc, hprods, heta, rfl⟩ := relaxSdp_inv h
  refine ⟨q, hq, ?_⟩
  have hbo := hbo q hq
  obtain ⟨o, pre, hbd, hdim⟩ := qData_table hC hp hq
  obtain ⟨cs, co, fr⟩ := qData_inv hq
  have sh := fr.shaped
  have hs : q.s = ⟨q.tab.names.length, sm.nI, sm.nE, dimG⟩ := fr.s
  have hsv : q.s.v = q.tab.names.length := by rw [hs]
  have hrx : q.s.rx = q.s.v + (q.s.nI + q.s.nE) := by rw [QSizes.rx]; omega
  have hone : q.tab.names[0]? = some .one := by obtain ⟨t, ht⟩ := pre; rw [← ht]; rfl
  have hcl : TableClosed params q.tab.names := by
    refine coeffLoop_closed hC hpl _ (VTab.init_ok hp) List.prefix_rfl (fun m hm n hn => ?_) TableClosed.init fr.coeff
    obtain ⟨km, hk, rfl⟩ := List.mem_map.1 hm
    exact hv km hk n hn
  set x := relaxVec sm q.tab.names env mult with hxdef
  have hm : Monos q.tab.names x env := by
    intro i n hi
    have := (List.getElem?_eq_some_iff.1 hi).1
    rw [hxdef, relaxVec, if_pos this, hi]
  have hkeys : ∀ (k : ℕ) (key : SpKey) m, ents[k]? = some (key, m) → (Dict.keys sm.spExp)[k]? = some key := by
    intro k key m hk
    have hlt := (List.getElem?_eq_some_iff.1 hk).1
    rw [pr.sp, Dict.keys_append, List.getElem?_append_left (by simpa [Dict.keys] using hlt), Dict.keys, List.getElem?_map, hk]; rfl
  have hmu : ∀ (k : ℕ) (key : SpKey) m, ents[k]? = some (key, m) → x (q.tab.names.length + k) = mult key := by
    intro k key m hk
    rw [hxdef, relaxVec, if_neg (by omega), Nat.add_sub_cancel_left, hkeys k key m hk]
  have hobj : ∀ (k : ℕ) (key : SpKey) m, ents[k]? = some (key, m) → key ≠ .obj := by
    intro k key m hk hh
    subst hh
    have := pr.nodup
    rw [pr.sp, Dict.keys_append, List.nodup_append] at this
    exact this.2.2 SpKey.obj (List.mem_map.2 ⟨_, List.mem_of_getElem? hk, rfl⟩) SpKey.obj (by simp) rfl
  have hx0 : x 0 = 1 := hm 0 _ hone
  have hplain : ∀ n, Plain n → ∀ i, q.tab.lookup n = .ok i → x i = env n := by
    intro n hn i hi
    rw [hm _ _ (o.lookup.1 hi)]
    exact longEnv_plain hn
  refine ⟨⟨?_, ?_⟩, ?_⟩
  · intro p hpm
    simp only [List.mem_cons, List.not_mem_nil, or_false] at hpm
    rcases hpm with rfl | rfl | rfl
    · exact IsPSD.outer _ fun i => if i < q.s.rx then x i else 1
    · exact IsPSD.outer _ x
    · exact hZ
  · simp only [List.forall_mem_append]
    refine ⟨⟨⟨⟨⟨⟨⟨⟨relaxStruct_lift hx0 _, diagDominates_lift (fun i => if i < q.s.rx then x i else 1) fun _ _ => rfl⟩,
      diagDominates_lift x fun _ _ => rfl⟩, ?_⟩, ?_⟩, ?_⟩, ?_⟩, ?_⟩, ?_⟩
    · obtain ⟨i1, i2, i3, i4, i5, l1, l2, l3, l4, l5, rfl⟩ := relaxScalars_ok hsc
      have hp1 : Plain "eta" := by decide
      have hp2 : Plain "h" := by decide
      have hp3 : Plain "rho" := by decide
      have hp4 : Plain "alpha" := by decide
      have hp5 : Plain "beta" := by decide
      rw [abs_le] at ha hbeta
      intro c hc
      simp only [List.mem_cons, List.not_mem_nil, or_false] at hc
      rcases hc with rfl | rfl | rfl | rfl | rfl | rfl | rfl | rfl
      · show ((1 / 100000 : ℚ) : ℝ) ≤ x i1; rw [hplain _ hp1 _ l1]; push_cast; exact he
      · show ((1 / 100000 : ℚ) : ℝ) ≤ x i2; rw [hplain _ hp2 _ l2]; push_cast; exact hh
      · show ((0 : ℚ) : ℝ) ≤ x i3; rw [hplain _ hp3 _ l3]; push_cast; exact hrho
      · show ((-1 : ℚ) : ℝ) ≤ x i4; rw [hplain _ hp4 _ l4]; push_cast; exact ha.1
      · show x i4 ≤ ((1 : ℚ) : ℝ); rw [hplain _ hp4 _ l4]; push_cast; exact ha.2
      · show ((-1 : ℚ) : ℝ) ≤ x i5; rw [hplain _ hp5 _ l5]; push_cast; exact hbeta.1
      · show x i5 ≤ ((1 : ℚ) : ℝ); rw [hplain _ hp5 _ l5]; push_cast; exact hbeta.2
      · show x 0 = ((1 : ℚ) : ℝ); rw [hx0]; norm_num
    · intro c hc
      rw [cvxBounds, List.mem_flatMap] at hc
      obtain ⟨b, hb, hc⟩ := hc
      obtain ⟨b1, b2, b3, b4, b5⟩ := hbo b hb
      cases hl : cvxLook q.tab q.s b.name with
      | none => rw [hl] at hc; cases hc
      | some xs =>
        rw [hl] at hc
        refine boundCons_holds (fun e hxe => ?_) c hc
        rw [cvxLook] at hl
        by_cases hbZ : b.name = "Z"
        · rw [if_pos hbZ] at hl
          injection hl with hl
          subst hl
          obtain ⟨p, hp, rfl⟩ := List.mem_map.1 hxe
          rw [mem_loopPairs', hdim] at hp
          exact b3 hbZ _ hp.1 _ hp.2
        rw [if_neg hbZ, if_neg b1, if_neg b2] at hl
        cases hi : q.tab.idx.get? (.str b.name) with
        | some i =>
          rw [hi] at hl
          injection hl with hl
          subst hl
          rw [List.mem_singleton] at hxe
          subst hxe
          have hi' := o.get.1 hi
          have := b4 hbZ (List.mem_of_getElem? hi')
          have e1 : x i = longEnv env b.name := hm i _ hi'
          show b.Within (x i)
          rw [e1]; exact this
        | none =>
          rw [hi] at hl
          simp only at hl
          split at hl
          · rename_i hlamb
            injection hl with hl
            subst hl
            obtain ⟨k, hk, rfl⟩ := List.mem_map.1 hxe
            have hk := List.mem_range.1 hk
            rw [Nat.add_assoc, sel_lift hk (by omega)]
            have hlen := pr.len
            have hke : k < ents.length := by rw [hlen]; rw [hs] at hk; exact hk
            have hk' : ents[k]? = some ents[k] := List.getElem?_eq_getElem hke
            rw [hsv, hmu k _ _ hk']
            refine b5 hlamb (fun hmem => ?_) _ (List.mem_of_getElem? (hkeys k _ _ hk')) (hobj k _ _ hk')
            obtain ⟨i, hi'⟩ := List.getElem?_of_mem hmem
            rw [o.get.2 hi'] at hi
            cases hi
          · cases hl
    · simp only [List.forall_mem_map, List.mem_range]
      intro k hk
      rw [QData.relaxEqF, holds_eq_iff, relaxLin_lift sh.objF, blockQ_lift]
      have := eqF_value hC hp fr pr hm hmu hk
      have := d.F k hk
      linarith
    · simp only [List.forall_mem_map]
      intro p hpp
      obtain ⟨h1, h2⟩ := mem_loopPairs'.1 hpp
      rw [QData.relaxEqG, holds_eq_iff, blockQ_lift]
      show (q.relaxLin q.objG _).eval _ + Z p.1 p.2 = _
      rw [relaxLin_lift sh.objG, hdim]
      have := eqG_value hC hp fr pr hm hmu h1 h2
      have := d.G _ h1 _ h2
      linarith
    · refine (productCons_holds hprods).2 fun n hn p hpi => ?_
      have hmem := List.mem_of_mem_drop hn
      have := prod_of_monos o hone hcl hpl hm hmem hpi
      cases n with
      | one => cases hpi
      | str s =>
        obtain ⟨-, g1, g2, g3⟩ := productIdx_ok hpi
        have k1 := hbd _ _ g1
        have k2 := hbd _ _ g2
        have k3 := hbd _ _ g3
        rw [relaxProd_lift (by omega) (by omega) (by omega)]
        linarith
    · simp only [QData.relaxLamb, List.forall_mem_map, List.mem_range]
      intro i hi
      rw [holds_ge_iff, sel_lift hi (by omega)]
      show ((0 : ℚ) : ℝ) ≤ _
      have hnI : q.s.nI = sm.nI := by rw [hs]
      have hlen := pr.len
      have hke : i < ents.length := by omega
      have hk : ents[i]? = some ents[i] := List.getElem?_eq_getElem hke
      obtain ⟨a, b, c, hkey⟩ := (pr.ineq i _ _ hk).1 (by omega)
      rw [hsv, hmu i _ _ hk, hkey]
      push_cast
      exact d.nonneg a b c (by rw [← hkey]; exact List.mem_of_getElem? (hkeys i _ _ hk))
  · show ((-1 : ℚ) : ℝ) * eta.eval _ = _
    rw [tabExpr_spec hC o heta (env := env) hm]
    push_cast; ring

end Verif
