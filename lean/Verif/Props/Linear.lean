import Verif.Proofs.Linear
import Verif.Props.Parsing

/-!
# C58: coefficients of matrices of linear expressions
-/

namespace Verif

variable {C : CAS}

/-! ### Which matrices are accepted -/

theorem expo_degree (t : PolyTerm) : (t.1.map Prod.snd).sum = t.expo.sum fun _ k => k := by
  have : ∀ l : List (Name × ℕ), (l.map Prod.snd).sum = ((l.map fun p => Finsupp.single p.1 p.2).sum).sum fun _ k => k := by
    intro l
    induction l with
    | nil => simp
    | cons p l ih =>
      rw [List.map_cons, List.sum_cons, List.map_cons, List.sum_cons, ih, Finsupp.sum_add_index' (fun _ => rfl) (fun _ _ _ => rfl),
        Finsupp.sum_single_index rfl]
  exact this t.1

/-- exponents of the symbol of an entry of the table -/
noncomputable def VName.expo : VName → (Name →₀ ℕ)
  | .one => 0
  | .str s => Finsupp.single s 1

theorem toMv_affine {e : Sym} {names : List VName} {c : VName → ℚ}
    (h : ∀ env : Name → ℝ, e.eval env = (names.map fun k => (c k : ℝ) * k.symVal env).sum) :
    e.toMv = (names.map fun k => MvPolynomial.monomial k.expo (c k)).sum := by
  refine mv_ext fun env => ?_
  rw [Sym.aeval_toMv, h, map_list_sum, List.map_map]
  congr 1
  refine List.map_congr_left fun k _ => ?_
  cases k with
  | one => simp [VName.expo, VName.symVal]
  | str s => simp [VName.expo, VName.symVal, MvPolynomial.aeval_monomial]

theorem coeff_affine {names : List VName} {c : VName → ℚ} {d : Name →₀ ℕ}
    (h : MvPolynomial.coeff d ((names.map fun k => MvPolynomial.monomial k.expo (c k)).sum) ≠ 0) : ∃ k ∈ names, k.expo = d := by
  by_contra hh
  push Not at hh
  apply h
  induction names with
  | nil => rfl
  | cons k l ih =>
    rw [List.map_cons, List.sum_cons, MvPolynomial.coeff_add, MvPolynomial.coeff_monomial, if_neg (hh k (by simp)), zero_add]
    refine ih ?_ fun x hx => hh x (by simp [hx])
    intro h0
    apply h
    rw [List.map_cons, List.sum_cons, MvPolynomial.coeff_add, MvPolynomial.coeff_monomial, if_neg (hh k (by simp)), zero_add, h0]

theorem varName_of_expo (hC : C.Lawful) {e : Sym} {t : PolyTerm} (ht : t ∈ C.poly e) {k : VName} (h : k.expo = t.expo) :
    (t.1.map Prod.snd).sum ≤ 1 ∧ varName t = k := by
  cases k with
  | one =>
    have hd : (t.1.map Prod.snd).sum = 0 := by rw [expo_degree, ← h]; simp [VName.expo]
    refine ⟨by omega, ?_⟩
    have : monoNames t = [] := List.length_eq_zero_iff.1 (by rw [monoNames_length, hd])
    rcases linear_cases (t := t) (by omega) with ⟨-, h2⟩ | ⟨n, h1, -⟩
    · exact h2
    · rw [this] at h1; cases h1
  | str s =>
    have hd : (t.1.map Prod.snd).sum = 1 := by rw [expo_degree, ← h]; simp [VName.expo]
    refine ⟨by omega, ?_⟩
    rcases linear_cases (t := t) (by omega) with ⟨h1, -⟩ | ⟨n, h1, h2⟩
    · have := monoNames_length t
      rw [h1, hd] at this; cases this
    · rw [h2]
      obtain ⟨gens, hg, hgen⟩ := hC.poly_gens e
      have hn : n ∈ monoNames t := by rw [h1]; simp
      rw [monoNames, List.mem_flatMap] at hn
      obtain ⟨p, hp, hn⟩ := hn
      obtain ⟨hp0, rfl⟩ := List.mem_replicate.1 hn
      have hx : t.expo p.1 = p.2 := expo_apply t.1 (by rw [hgen t ht]; exact hg) p hp
      rw [← h, VName.expo, Finsupp.single_apply] at hx
      split at hx
      · rename_i hs; rw [hs]
      · exact absurd hx.symm hp0

theorem affine_of_sum {e : Sym} {names : List VName} (hn : names.Nodup) (f : ℕ → ℚ) (h : ∀ env : Name → ℝ, e.eval env =
    ∑ j ∈ Finset.range names.length, (f j : ℝ) * ((names[j]?).map (VName.symVal env)).getD 0) : IsAffineIn e names := by
  refine ⟨fun k => f (names.idxOf k), fun env => ?_⟩
  rw [h, sum_range_names (fun j => (f j : ℝ))]
  have h1 : ∀ p ∈ names.zipIdx, (f p.2 : ℝ) * p.1.symVal env = ((fun k : VName => (f (names.idxOf k) : ℝ) * k.symVal env) ∘ Prod.fst) p := by
    intro p hp
    have hp := List.mem_zipIdx_iff_getElem?.1 hp
    obtain ⟨hlt, hp⟩ := List.getElem?_eq_some_iff.1 hp
    show _ = (f (names.idxOf p.1) : ℝ) * p.1.symVal env
    rw [← hp, hn.idxOf_getElem]
  rw [List.map_congr_left h1, ← List.map_map, List.zipIdx_map_fst]

theorem linearEntry_iff (hC : C.Lawful) {idx : Dict VName ℕ} {names : List VName} (htab : IsTable idx names) (e : Sym) :
    LinearEntry C e names ↔ IsAffineIn e names := by
  constructor
  · intro h
    obtain ⟨m, hm⟩ := (linearMatrix_ok hC htab (es := [e])).2 (by simpa using h)
    have lm := linearMatrix_spec hC htab hm
    refine affine_of_sum htab.nodup (m.at_ 0) fun env => ?_
    rw [← termSum_symVal hC h env, ← lm.val 0 e rfl, Coeff.rowG, lm.cols]
  · rintro ⟨c, hc⟩ - t ht
    by_cases h0 : t.2 = 0
    · have hz := hC.poly_zero _ t ht h0
      have hd : (t.1.map Prod.snd).sum = 0 := List.sum_eq_zero fun x hx => by
        obtain ⟨p, hp, rfl⟩ := List.mem_map.1 hx
        exact hz p hp
      refine ⟨by omega, ?_⟩
      rcases linear_cases (t := t) (by omega) with ⟨-, h2⟩ | ⟨n, h1, -⟩
      · rw [h2]; exact List.mem_of_getElem? htab.one
      · have := monoNames_length t
        rw [h1, hd] at this; cases this
    · have h1 := coeff_of_mem hC ht
      rw [Sym.toMv_congr (fun env => hC.simp_eval env e), toMv_affine hc] at h1
      obtain ⟨k, hk, he⟩ := coeff_affine (by rw [h1]; exact h0)
      obtain ⟨h2, h3⟩ := varName_of_expo hC ht he
      exact ⟨h2, h3 ▸ hk⟩

/-- **C58**, acceptance: `linear_matrix_expr_to_coeff_matrix` accepts a matrix exactly if every entry is a constant plus a linear combination of the
symbols named in the table; otherwise it raises AssertionError or KeyError. -/
theorem C58_accepts (hC : C.Lawful) {idx : Dict VName ℕ} {names : List VName} (htab : IsTable idx names) (es : List Sym) :
    ((∃ m, linearMatrix C es idx = .ok m) ↔ ∀ e ∈ es, IsAffineIn e names) ∧
    (∀ err, linearMatrix C es idx = .error err → err = .assertion ∨ err = .key) := by
  refine ⟨(linearMatrix_ok hC htab).trans (forall₂_congr fun e _ => linearEntry_iff hC htab e), ?_⟩
  have hterm : ∀ (row : ℕ) (ts : List PolyTerm) (m : Coeff) (err : Err), m.cols = names.length →
      ts.foldlM (linearTerm idx row) m = .error err → err = .assertion ∨ err = .key := by
    intro row ts
    induction ts with
    | nil => intro m err _ h; cases h
    | cons t ts ih =>
      intro m err hc h
      rw [List.foldlM_cons] at h
      cases h1 : linearTerm idx row m t with
      | ok m1 =>
        rw [h1] at h
        obtain ⟨-, j, -, rfl⟩ := (linearTerm_spec htab hc).1 h1
        refine ih (Coeff.mk m.cols fun a b => if a = row ∧ b = j then t.2 else m.at_ a b) err hc h
      | error e1 =>
        rw [h1] at h
        injection h with h
        subst h
        rw [linearTerm] at h1
        split at h1
        · cases hg : idx.get? (varName t) with
          | none => rw [hg] at h1; injection h1 with h1; exact .inr h1.symm
          | some j =>
            rw [hg] at h1
            have hlt : j < m.cols := by rw [hc]; exact (List.getElem?_eq_some_iff.1 ((htab.get _ _).1 hg)).1
            simp [Coeff.put, hlt] at h1
        · injection h1 with h1; exact .inl h1.symm
  have hent : ∀ (es done : List Sym) (row : ℕ) (m : Coeff) (err : Err), done.length = row → LinMat C names row done m →
      linearEntries C idx es row m = .error err → err = .assertion ∨ err = .key := by
    intro es
    induction es with
    | nil => intro done row m err _ _ h; cases h
    | cons e es ih =>
      intro done row m err hd lm h
      rw [linearEntries] at h
      cases h1 : linearEntry C idx row e m with
      | ok m1 =>
        rw [h1] at h
        exact ih (done ++ [e]) (row + 1) m1 err (by simp [hd]) (linearEntry_spec hC htab hd lm h1) h
      | error e1 =>
        rw [h1] at h
        injection h with h
        subst h
        rw [linearEntry] at h1
        split at h1
        · have : (0 : ℕ) < m.cols := by rw [lm.cols]; exact (List.getElem?_eq_some_iff.1 htab.one).1
          simp [Coeff.put, this] at h1
        · exact hterm row _ m _ lm.cols h1
  exact fun err h => hent es [] 0 _ err rfl (linMat_zero htab) h

/-- **C58**, the numbers: row `i` of the result times the vector of symbols is entry `i`, and there is a column for every name. -/
theorem C58_rows (hC : C.Lawful) {idx : Dict VName ℕ} {names : List VName} (htab : IsTable idx names) {es : List Sym} {m : Coeff}
    (h : linearMatrix C es idx = .ok m) : m.cols = names.length ∧ ∀ (i : ℕ) (e : Sym), es[i]? = some e → ∀ env : Name → ℝ,
      ∑ j ∈ Finset.range names.length, (m.at_ i j : ℝ) * ((names[j]?).map (VName.symVal env)).getD 0 = e.eval env := by
  have lm := linearMatrix_spec hC htab h
  refine ⟨lm.cols, fun i e hi env => ?_⟩
  rw [← termSum_symVal hC (lm.ok e (List.mem_of_getElem? hi)) env, ← lm.val i e hi, Coeff.rowG, lm.cols]

theorem rowExpr_eval (m : Coeff) (v : List Sym) (i : ℕ) (env : Name → ℝ) :
    (rowExpr m v i).eval env = ∑ j ∈ Finset.range m.cols, (m.at_ i j : ℝ) * (v.getD j (Sym.num 0)).eval env := by
  have : ∀ n, ((List.range n).foldl (fun acc j => acc + Sym.num (m.at_ i j) * v.getD j (Sym.num 0)) (Sym.num 0)).eval env =
      ∑ j ∈ Finset.range n, (m.at_ i j : ℝ) * (v.getD j (Sym.num 0)).eval env := by
    intro n
    induction n with
    | zero => simp
    | succ n ih => rw [List.range_succ, List.foldl_append, Finset.sum_range_succ, ← ih]; simp
  exact this _

theorem sym_getD (names : List VName) (j : ℕ) (env : Name → ℝ) :
    ((names.map VName.sym).getD j (Sym.num 0)).eval env = ((names[j]?).map (VName.symVal env)).getD 0 := by
  rw [List.getD_eq_getElem?_getD, List.getElem?_map]
  cases names[j]? with
  | none => simp
  | some k => cases k <;> simp [VName.sym, VName.symVal]

/-- **C58**, first round trip (this is what `test_linear_coefficients.py` checks on examples): rebuilding a matrix from its coefficients gives a matrix of
the same shape with the same values, whatever the symbols stand for. -/
theorem C58_rebuild (hC : C.Lawful) {idx : Dict VName ℕ} {names : List VName} (htab : IsTable idx names) {es : List Sym} {m : Coeff}
    (h : linearMatrix C es idx = .ok m) : ∃ es', coeffToLinear m es.length (names.map VName.sym) es.length = .ok es' ∧ es'.length = es.length ∧
      ∀ (i : ℕ) (e e' : Sym), es[i]? = some e → es'[i]? = some e' → ∀ env : Name → ℝ, e'.eval env = e.eval env := by
  obtain ⟨hc, hv⟩ := C58_rows hC htab h
  refine ⟨_, by rw [coeffToLinear, if_neg (by simp [hc]), if_neg (by simp)], by simp, ?_⟩
  intro i e e' hi hi' env
  obtain ⟨hlt, -⟩ := List.getElem?_eq_some_iff.1 hi
  rw [List.getElem?_map, List.getElem?_range hlt] at hi'
  simp only [Option.map_some, Option.some.injEq] at hi'
  rw [← hi', rowExpr_eval, ← hv i e hi env, hc]
  exact Finset.sum_congr rfl fun j _ => by rw [sym_getD]

/-- **C58**, second round trip: the coefficients of the matrix that a coefficient matrix stands for are that coefficient matrix. -/
theorem C58_coefficients (hC : C.Lawful) {idx : Dict VName ℕ} {names : List VName} (htab : IsTable idx names) {m : Coeff} {rows : ℕ} {es : List Sym}
    (hcols : m.cols ≤ names.length) (h : coeffToLinear m rows (names.map VName.sym) rows = .ok es) :
    ∃ m', linearMatrix C es idx = .ok m' ∧ m'.cols = names.length ∧ ∀ i < rows, ∀ j < names.length, m'.at_ i j = if j < m.cols then m.at_ i j else 0 := by
  rw [coeffToLinear, if_neg (by simpa using hcols), if_neg (by simp)] at h
  injection h with h
  subst h
  have hval : ∀ (i : ℕ) (env : Name → ℝ), (rowExpr m (names.map VName.sym) i).eval env =
      ∑ j ∈ Finset.range names.length, ((if j < m.cols then m.at_ i j else 0 : ℚ) : ℝ) * ((names[j]?).map (VName.symVal env)).getD 0 := by
    intro i env
    rw [rowExpr_eval]
    have hsub := Finset.sum_subset (Finset.range_mono hcols) (f := fun j => ((if j < m.cols then m.at_ i j else 0 : ℚ) : ℝ) *
      ((names[j]?).map (VName.symVal env)).getD 0) (by
        intro j _ hj
        rw [if_neg (by simpa using hj)]; simp)
    rw [← hsub]
    exact Finset.sum_congr rfl fun j hj => by rw [sym_getD, if_pos (Finset.mem_range.1 hj)]
  have haff : ∀ e ∈ (List.range rows).map (rowExpr m (names.map VName.sym)), IsAffineIn e names := by
    intro e he
    obtain ⟨i, -, rfl⟩ := List.mem_map.1 he
    exact affine_of_sum htab.nodup _ (hval i)
  obtain ⟨m', hm'⟩ := (C58_accepts hC htab _).1.2 haff
  obtain ⟨hc, hv⟩ := C58_rows hC htab hm'
  refine ⟨m', hm', hc, fun i hi j hj => ?_⟩
  have hz := names_indep htab.nodup (fun j => (m'.at_ i j : ℝ) - ((if j < m.cols then m.at_ i j else 0 : ℚ) : ℝ)) (by
    intro env
    have h1 := hv i (rowExpr m (names.map VName.sym) i) (by rw [List.getElem?_map, List.getElem?_range hi]; rfl) env
    rw [hval] at h1
    simp only [sub_mul, Finset.sum_sub_distrib]
    rw [h1, sub_self]) j hj
  have := sub_eq_zero.1 hz
  exact_mod_cast this

/-! ### The coefficient matrices of a problem -/

theorem VTab.Ok.table {tab : VTab} (o : tab.Ok) (h : tab.names[0]? = some .one) : IsTable tab.idx tab.names :=
  ⟨o.nodup, h, o.len, fun _ _ => o.get⟩

theorem linearize_eq_termSum (hC : C.Lawful) {e : Sym} (hp : isConst C e = false → ∀ t ∈ C.poly (C.simp e), ∀ n ∈ monoNames t, Plain n) (env : Name → ℝ) :
    (linearize C e).eval env = termSum C e (VName.symVal env) := by
  rw [linearize, termSum]
  split
  · rename_i hc
    rw [isConst_eval hC hc]; simp [VName.symVal]
  · rename_i hc
    rw [hC.simp_eval, eval_sumTerms]
    congr 1
    refine List.map_congr_left fun t ht => ?_
    have hpl := hp (by simpa using hc) t ht
    rw [linTerm, varName]
    by_cases hne : monoNames t = []
    · rw [if_neg (by simpa using hne), if_neg (by rw [hne]; simp [sortNames])]
      simp [VName.symVal]
    · have hsne : sortNames (monoNames t) ≠ [] := fun hh => hne (sortNames_eq_nil.1 hh)
      rw [if_pos hne, if_pos hsne, splitU_join_plain hsne fun n hn => hpl n (mem_sortNames.1 hn), sortNames_of_sorted (sortNames_pairwise _)]
      simp [VName.symVal]

theorem linear_of_represents (hC : C.Lawful) {idx : Dict VName ℕ} {names : List VName} (htab : IsTable idx names) {c : Coeff} {es : List Sym}
    (r : Represents C c names es) : ∃ m, linearMatrix C (es.map (linearize C)) idx = .ok m ∧
      ∀ i < es.length, ∀ j < names.length, m.at_ i j = if j < c.cols then c.at_ i j else 0 := by
  have hval : ∀ (i : ℕ) (e : Sym), es[i]? = some e → ∀ env : Name → ℝ, (linearize C e).eval env =
      ∑ j ∈ Finset.range names.length, ((if j < c.cols then c.at_ i j else 0 : ℚ) : ℝ) * ((names[j]?).map (VName.symVal env)).getD 0 := by
    intro i e hi env
    rw [linearize_eq_termSum hC (r.plain i e hi), ← r.val i e hi, Coeff.rowG]
    have hsub := Finset.sum_subset (Finset.range_mono r.cols) (f := fun j => ((if j < c.cols then c.at_ i j else 0 : ℚ) : ℝ) *
      ((names[j]?).map (VName.symVal env)).getD 0) (by
        intro j _ hj
        rw [if_neg (by simpa using hj)]; simp)
    rw [← hsub]
    exact Finset.sum_congr rfl fun j hj => by rw [if_pos (Finset.mem_range.1 hj)]
  have haff : ∀ e ∈ es.map (linearize C), IsAffineIn e names := by
    intro e he
    obtain ⟨e0, he0, rfl⟩ := List.mem_map.1 he
    obtain ⟨i, hi⟩ := List.getElem?_of_mem he0
    exact affine_of_sum htab.nodup _ (hval i e0 hi)
  obtain ⟨m, hm⟩ := (C58_accepts hC htab _).1.2 haff
  obtain ⟨-, hv⟩ := C58_rows hC htab hm
  refine ⟨m, hm, fun i hi j hj => ?_⟩
  have hz := names_indep htab.nodup (fun j => (m.at_ i j : ℝ) - ((if j < c.cols then c.at_ i j else 0 : ℚ) : ℝ)) (by
    intro env
    have hi' : es[i]? = some es[i] := List.getElem?_eq_getElem hi
    have h1 := hv i (linearize C es[i]) (by rw [List.getElem?_map, hi']; rfl) env
    rw [hval i _ hi'] at h1
    simp only [sub_mul, Finset.sum_sub_distrib]
    rw [h1, sub_self]) j hj
  have := sub_eq_zero.1 hz
  exact_mod_cast this

/-- **C58**, agreement: for every problem, the coefficient matrices that the solvers use (`sp_v_coeff_matrix`) are the coefficients of the linearized
matrices (`simplify_matrix`) with respect to the final table, padded with zeros for names that were added later. -/
theorem C58_problem (hC : C.Lawful) {sp : Dict SpKey FG} {params : List Name} {dimG dimF : ℕ} {tab : VTab} {cs : List (Coeff × Coeff)}
    (hp : params.Nodup) (h : spCoeffMatrix C sp params dimG dimF = .ok (tab, cs))
    {k : ℕ} {key : SpKey} {m : FG} {cF cG : Coeff} (hk : sp[k]? = some (key, m)) (hc : cs[k]? = some (cF, cG)) :
    (∃ mF, linearMatrix C ((simplifyMatrix C m).flatF dimF) tab.idx = .ok mF ∧
      ∀ i < dimF, ∀ j < tab.names.length, mF.at_ i j = if j < cF.cols then cF.at_ i j else 0) ∧
    ∃ mG, linearMatrix C ((simplifyMatrix C m).flatG dimG) tab.idx = .ok mG ∧
      ∀ i < dimG * dimG, ∀ j < tab.names.length, mG.at_ i j = if j < cG.cols then cG.at_ i j else 0 := by
  obtain ⟨o, hpre, hf⟩ := coeffLoop_spec (params := params) hC _ (VTab.init_ok hp) List.prefix_rfl h
  obtain ⟨h1, e1⟩ := List.getElem?_eq_some_iff.1 hk
  obtain ⟨h2, e2⟩ := List.getElem?_eq_some_iff.1 hc
  have := (List.forall₂_iff_get.1 hf).2 k (by simpa using h1) h2
  simp only [List.get_eq_getElem, List.getElem_map, e1, e2] at this
  obtain ⟨rF, rG⟩ := this
  have htab := o.table (one_of_prefix (params := params) hpre)
  obtain ⟨mF, hF, vF⟩ := linear_of_represents hC htab rF
  obtain ⟨mG, hG, vG⟩ := linear_of_represents hC htab rG
  have eF : (m.flatF dimF).map (linearize C) = (simplifyMatrix C m).flatF dimF := by
    rw [FG.flatF, FG.flatF, List.map_map]; rfl
  have eG : (m.flatG dimG).map (linearize C) = (simplifyMatrix C m).flatG dimG := by
    rw [FG.flatG, FG.flatG, List.map_map]; rfl
  rw [eF] at hF
  rw [eG] at hG
  exact ⟨⟨mF, hF, fun i hi => vF i (by simpa [FG.flatF] using hi)⟩, mG, hG, fun i hi => vG i (by simpa [FG.flatG] using hi)⟩

/-! ### `const_coeff_expr` -/

theorem constTerms_of_linear {idx : Dict VName ℕ} {names : List VName} (htab : IsTable idx names) : ∀ (ts : List PolyTerm) {m m' : Coeff} (o : Option ℕ),
    m.cols = names.length → ts.foldlM (linearTerm idx 0) m = .ok m' → ∃ o', ts.foldlM (constTerm idx) (o, m.at_ 0) = .ok (o', m'.at_ 0) := by
  intro ts
  induction ts with
  | nil => intro m m' o _ h; injection h with h; subst h; exact ⟨o, rfl⟩
  | cons t ts ih =>
    intro m m' o hc h
    rw [List.foldlM_cons] at h
    obtain ⟨m1, h1, h⟩ := Except.bind_ok_iff.1 h
    obtain ⟨hd, j, hj, rfl⟩ := (linearTerm_spec htab hc).1 h1
    obtain ⟨o', h2⟩ := ih (some j) (m := Coeff.mk m.cols fun a b => if a = 0 ∧ b = j then t.2 else m.at_ a b) hc h
    refine ⟨o', ?_⟩
    have hlt : j < idx.length := by rw [htab.size]; exact (List.getElem?_eq_some_iff.1 hj).1
    have h3 : constTerm idx (o, m.at_ 0) t = .ok (some j, fun b => if (0 : ℕ) = 0 ∧ b = j then t.2 else m.at_ 0 b) := by
      rw [constTerm, if_pos hd, (htab.get _ _).2 hj]
      simp only [Option.orElse_some, if_pos hlt]
      congr 2
      funext b
      simp [Function.update_apply]
    rw [List.foldlM_cons, h3]
    exact h2

/-- **C58**, one expression: for an expression that is linear in the symbols of the table, `const_coeff_expr` returns the column of its coefficients,
padded with zeros. -/
theorem C58_const (hC : C.Lawful) {idx : Dict VName ℕ} {names : List VName} (htab : IsTable idx names) {e : Sym} (he : IsAffineIn e names) {xSize : ℕ}
    (hx : names.length ≤ xSize) : ∃ row, constCoeff C e idx xSize = .ok row ∧ (∀ j, names.length ≤ j → row j = 0) ∧ ∀ env : Name → ℝ,
      ∑ j ∈ Finset.range names.length, (row j : ℝ) * ((names[j]?).map (VName.symVal env)).getD 0 = e.eval env := by
  obtain ⟨m, hm⟩ := (C58_accepts hC htab [e]).1.2 (by simpa using he)
  obtain ⟨hcols, hv⟩ := C58_rows hC htab hm
  have lm := linearMatrix_spec hC htab hm
  refine ⟨m.at_ 0, ?_, fun j hj => lm.zero 0 j (by rw [hcols]; exact hj), fun env => hv 0 e rfl env⟩
  rw [linearMatrix, linearEntries] at hm
  obtain ⟨m1, h1, hm⟩ := Except.bind_ok_iff.1 hm
  injection hm with hm
  subst hm
  rw [linearEntry] at h1
  rw [constCoeff]
  have hpos : 0 < idx.length := by rw [htab.size]; exact (List.getElem?_eq_some_iff.1 htab.one).1
  have hle : idx.length ≤ xSize := by rw [htab.size]; exact hx
  by_cases hc : isConst C e = true
  · rw [if_pos hc] at h1
    simp only [Coeff.put, if_pos hpos, Except.ok.injEq] at h1
    subst h1
    simp only [if_pos hc, if_pos hpos, bind, Except.bind, if_pos hle, Except.ok.injEq]
    funext b
    simp [Function.update_apply]
  · rw [if_neg hc] at h1
    obtain ⟨o', h2⟩ := constTerms_of_linear htab _ none (by exact htab.size) h1
    rw [if_neg hc]
    have h2' : (C.poly (C.simp e)).foldlM (constTerm idx) (none, fun _ => 0) = .ok (o', m1.at_ 0) := h2
    rw [h2']
    simp [bind, Except.bind, hle]

/-! ### Non-vacuity and negative findings -/

/-- a table with a parameter and a product -/
def linNames : List VName := [.one, .str "a", .str "b_c"]
def linIdx : Dict VName ℕ := [(.one, 0), (.str "a", 1), (.str "b_c", 2)]

theorem linTable : IsTable linIdx linNames := by
  have o : VTab.Ok ⟨linNames, linIdx⟩ := ⟨by decide, rfl⟩
  exact ⟨o.nodup, rfl, rfl, fun _ _ => o.get⟩

/-- `3 + 2 a + 5 z` where `z` is not in the table -/
def staleExpr : Sym := Sym.num 3 + Sym.num 2 * Sym.var "a" + Sym.num 5 * Sym.var "z"

/-- **C58**, negative finding: `const_coeff_expr` does not reject a symbol that is not in the table: its coefficient silently replaces the coefficient of the
symbol before it.  For `3 + 2 a + 5 z` the result stands for `3 + 5 a`, where `linear_matrix_expr_to_coeff_matrix` raises KeyError.  When there is no
symbol before it, `const_coeff_expr` raises UnboundLocalError. -/
theorem C58_const_stale : (∃ row, constCoeff refCAS staleExpr linIdx 4 = .ok row ∧ row 0 = 3 ∧ row 1 = 5 ∧ row 2 = 0) ∧
    linearMatrix refCAS [staleExpr] linIdx = .error .key ∧
    constCoeff refCAS (Sym.num 5 * Sym.var "z") linIdx 4 = .error .unbound ∧ linearMatrix refCAS [Sym.num 5 * Sym.var "z"] linIdx = .error .key := by
  refine ⟨?_, ?_, ?_, ?_⟩
  · have h : (match constCoeff refCAS staleExpr linIdx 4 with | .ok row => decide (row 0 = 3 ∧ row 1 = 5 ∧ row 2 = 0) | .error _ => false) = true := by
      decide +kernel
    split at h
    · rename_i row hr
      exact ⟨row, hr, by simpa using h⟩
    · cases h
  · have h : (match linearMatrix refCAS [staleExpr] linIdx with | .error .key => true | _ => false) = true := by decide +kernel
    split at h
    · assumption
    · cases h
  · have h : (match constCoeff refCAS (Sym.num 5 * Sym.var "z") linIdx 4 with | .error .unbound => true | _ => false) = true := by decide +kernel
    split at h
    · assumption
    · cases h
  · have h : (match linearMatrix refCAS [Sym.num 5 * Sym.var "z"] linIdx with | .error .key => true | _ => false) = true := by decide +kernel
    split at h
    · assumption
    · cases h

/-- the hypotheses of `C58_rows`, `C58_rebuild`, `C58_const` hold for `7 + 2 a - b_c` -/
example : IsAffineIn (Sym.num 7 + Sym.num 2 * Sym.var "a" - Sym.var "b_c") linNames :=
  ⟨fun k => match k with | .one => 7 | .str s => if s = "a" then 2 else -1, fun env => by
    simp [linNames, VName.symVal]; ring⟩

example : ∃ m, linearMatrix refCAS [Sym.num 7 + Sym.num 2 * Sym.var "a" - Sym.var "b_c", Sym.num 4] linIdx = .ok m ∧ m.at_ 0 0 = 7 ∧ m.at_ 0 1 = 2 ∧
    m.at_ 0 2 = -1 ∧ m.at_ 1 0 = 4 ∧ m.at_ 1 1 = 0 := by
  have h : (match linearMatrix refCAS [Sym.num 7 + Sym.num 2 * Sym.var "a" - Sym.var "b_c", Sym.num 4] linIdx with
    | .ok m => decide (m.at_ 0 0 = 7 ∧ m.at_ 0 1 = 2 ∧ m.at_ 0 2 = -1 ∧ m.at_ 1 0 = 4 ∧ m.at_ 1 1 = 0) | .error _ => false) = true := by decide +kernel
  split at h
  · rename_i m hm
    exact ⟨m, hm, by simpa using h⟩
  · cases h

/-- a product is rejected -/
example : linearMatrix refCAS [Sym.var "a" * Sym.var "a"] linIdx = .error .assertion := by
  have h : (match linearMatrix refCAS [Sym.var "a" * Sym.var "a"] linIdx with | .error .assertion => true | _ => false) = true := by decide +kernel
  split at h
  · assumption
  · cases h

/-- a coefficient matrix with two columns meets the hypotheses of `C58_coefficients` -/
example : ∃ es, coeffToLinear ⟨2, fun i j => (i + 2 * j : ℚ)⟩ 3 (linNames.map VName.sym) 3 = .ok es ∧ es.length = 3 :=
  ⟨_, by rw [coeffToLinear, if_neg (by decide), if_neg (by decide)], by simp⟩

end Verif
