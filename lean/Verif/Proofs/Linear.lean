import Verif.Model.Linear
import Verif.Spec.Linear
import Verif.Proofs.Coeff
import Verif.Proofs.Poly

/-!
# `linear_matrix_expr_to_coeff_matrix`
-/

namespace Verif

variable {C : CAS}

theorem monoNames_length (t : PolyTerm) : (monoNames t).length = (t.1.map Prod.snd).sum := by
  rw [monoNames, List.length_flatMap]
  congr 1
  exact List.map_congr_left fun p _ => by simp

/-- a monomial of degree at most one is 1 or a symbol -/
theorem linear_cases {t : PolyTerm} (h : (t.1.map Prod.snd).sum ≤ 1) :
    (monoNames t = [] ∧ varName t = .one) ∨ ∃ n, monoNames t = [n] ∧ varName t = .str n := by
  rw [← monoNames_length] at h
  match hm : monoNames t with
  | [] => exact .inl ⟨rfl, by rw [varName, hm, if_neg]; simp [sortNames]⟩
  | [n] =>
    refine .inr ⟨n, rfl, ?_⟩
    have : sortNames [n] = [n] := rfl
    rw [varName, hm, this, if_pos (by simp), joinU_singleton]
  | a :: b :: l => rw [hm] at h; simp at h

theorem linear_val {t : PolyTerm} (h : (t.1.map Prod.snd).sum ≤ 1) (env : Name → ℝ) : (varName t).symVal env = ((monoNames t).map env).prod := by
  rcases linear_cases h with ⟨h1, h2⟩ | ⟨n, h1, h2⟩
  · rw [h1, h2]; simp [VName.symVal]
  · rw [h1, h2]; simp [VName.symVal]

theorem linear_monoNames {t t' : PolyTerm} (h : (t.1.map Prod.snd).sum ≤ 1) (h' : (t'.1.map Prod.snd).sum ≤ 1) (hv : varName t = varName t') :
    monoNames t = monoNames t' := by
  rcases linear_cases h with ⟨h1, h2⟩ | ⟨n, h1, h2⟩ <;> rcases linear_cases h' with ⟨h3, h4⟩ | ⟨n', h3, h4⟩
  · rw [h1, h3]
  · rw [h2, h4] at hv; simp at hv
  · rw [h2, h4] at hv; simp at hv
  · rw [h2, h4] at hv
    injection hv with hv
    rw [h1, h3, hv]

theorem monoNames_inj {gens : List Name} (hg : gens.Nodup) {t t' : PolyTerm} (h1 : t.1.map Prod.fst = gens) (h2 : t'.1.map Prod.fst = gens)
    (h : monoNames t = monoNames t') : t.1 = t'.1 := by
  have hl : t.1.length = t'.1.length := by
    have := congrArg List.length (h1.trans h2.symm); simpa using this
  apply List.ext_getElem hl
  intro i hi hi'
  have e1 : (t.1[i]).1 = (t'.1[i]).1 := by
    have hx : (t.1.map Prod.fst)[i]'(by simpa using hi) = (t'.1.map Prod.fst)[i]'(by simpa using hi') := by
      congr 1; rw [h1, h2]
    simpa using hx
  have c1 := count_monoNames (l := t.1) (by rw [h1]; exact hg) _ (List.getElem_mem hi)
  have c2 := count_monoNames (l := t'.1) (by rw [h2]; exact hg) _ (List.getElem_mem hi')
  have c3 := congrArg (List.count (t.1[i]).1) h
  rw [monoNames, monoNames, c1, e1, c2] at c3
  exact Prod.ext e1 c3

theorem linearTerm_spec {idx : Dict VName ℕ} {names : List VName} (ht : IsTable idx names) {row : ℕ} {m m' : Coeff} {t : PolyTerm}
    (hc : m.cols = names.length) :
    linearTerm idx row m t = .ok m' ↔ (t.1.map Prod.snd).sum ≤ 1 ∧ ∃ j, names[j]? = some (varName t) ∧
      m' = ⟨m.cols, fun a b => if a = row ∧ b = j then t.2 else m.at_ a b⟩ := by
  rw [linearTerm]
  split
  · rename_i hd
    cases hg : idx.get? (varName t) with
    | none =>
      simp only [reduceCtorEq, false_iff]
      rintro ⟨-, j, hj, -⟩
      rw [(ht.get _ _).2 hj] at hg
      cases hg
    | some j =>
      have hj := (ht.get _ _).1 hg
      have hlt : j < m.cols := by rw [hc]; exact (List.getElem?_eq_some_iff.1 hj).1
      simp only [Coeff.put, if_pos hlt, Except.ok.injEq]
      constructor
      · rintro rfl; exact ⟨hd, j, hj, rfl⟩
      · rintro ⟨-, j', hj', rfl⟩
        rw [(ht.get _ _).2 hj'] at hg
        injection hg with hg
        subst hg; rfl
  · rename_i hd
    simp only [reduceCtorEq, false_iff]
    exact fun h => hd h.1

/-- invariant while the terms of entry `row` are processed -/
structure LinInv (names : List VName) (row : ℕ) (done : List PolyTerm) (m : Coeff) : Prop where
  cols : m.cols = names.length
  zero : ∀ i j, m.cols ≤ j → m.at_ i j = 0
  lin : ∀ t ∈ done, (t.1.map Prod.snd).sum ≤ 1 ∧ varName t ∈ names
  val : ∀ g, m.rowG names g row = (done.map fun t => (t.2 : ℝ) * g (varName t)).sum
  fresh : ∀ j k, names[j]? = some k → (∀ t ∈ done, varName t ≠ k) → m.at_ row j = 0
  below : ∀ i, row < i → ∀ j, m.at_ i j = 0

theorem linearTerms_spec {idx : Dict VName ℕ} {names : List VName} (htab : IsTable idx names) {gens : List Name} (hg : gens.Nodup) {row : ℕ} :
    ∀ (ts done : List PolyTerm) {m m' : Coeff}, LinInv names row done m → (∀ t ∈ done ++ ts, t.1.map Prod.fst = gens) →
    ((done ++ ts).map Prod.fst).Nodup → ts.foldlM (linearTerm idx row) m = .ok m' →
    LinInv names row (done ++ ts) m' ∧ ∀ i, i ≠ row → ∀ j, m'.at_ i j = m.at_ i j := by
  intro ts
  induction ts with
  | nil =>
    intro done m m' li _ _ h
    injection h with h
    subst h
    rw [List.append_nil]
    exact ⟨li, fun _ _ _ => rfl⟩
  | cons t ts ih =>
    intro done m m' li hgen hnd h
    rw [List.foldlM_cons] at h
    obtain ⟨m1, h1, h⟩ := Except.bind_ok_iff.1 h
    obtain ⟨hd, j, hj, rfl⟩ := (linearTerm_spec htab li.cols).1 h1
    have hfr : ∀ u ∈ done, varName u ≠ varName t := by
      intro u hu hh
      have := monoNames_inj hg (hgen u (by simp [hu])) (hgen t (by simp)) (linear_monoNames (li.lin u hu).1 hd hh)
      rw [List.map_append, List.nodup_append] at hnd
      exact hnd.2.2 u.1 (List.mem_map_of_mem hu) t.1 (by simp) this
    have hz : m.at_ row j = 0 := li.fresh j _ hj hfr
    have li1 : LinInv names row (done ++ [t]) ⟨m.cols, fun a b => if a = row ∧ b = j then t.2 else m.at_ a b⟩ := by
      refine ⟨li.cols, ?_, ?_, ?_, ?_, ?_⟩
      · intro a b hb
        have hlt : j < m.cols := by rw [li.cols]; exact (List.getElem?_eq_some_iff.1 hj).1
        simp only at hb ⊢
        rw [if_neg (by rintro ⟨-, rfl⟩; omega)]
        exact li.zero a b hb
      · intro u hu
        rcases List.mem_append.1 hu with hu | hu
        · exact li.lin u hu
        · rw [List.mem_singleton] at hu; subst hu; exact ⟨hd, List.mem_of_getElem? hj⟩
      · intro g
        rw [rowVal_put hj li.cols hz, if_pos rfl, li.val, List.map_append, List.sum_append, List.map_singleton, List.sum_singleton]
      · intro i k hk hdn
        have hij : i ≠ j := by
          rintro rfl
          rw [hk] at hj
          injection hj with hj
          exact hdn t (by simp) hj.symm
        simp only
        rw [if_neg (by rintro ⟨-, hh⟩; exact hij hh)]
        exact li.fresh i k hk fun u hu => hdn u (by simp [hu])
      · intro i hi k
        simp only
        rw [if_neg (by rintro ⟨rfl, -⟩; omega)]
        exact li.below i hi k
    have e : done ++ [t] ++ ts = done ++ t :: ts := by simp
    obtain ⟨r1, r2⟩ := ih (done ++ [t]) li1 (by rw [e]; exact hgen) (by rw [e]; exact hnd) h
    rw [e] at r1
    refine ⟨r1, fun i hi k => ?_⟩
    rw [r2 i hi k]
    simp only
    rw [if_neg (by rintro ⟨rfl, -⟩; exact hi rfl)]

theorem linearTerms_ok {idx : Dict VName ℕ} {names : List VName} (htab : IsTable idx names) {row : ℕ} :
    ∀ (ts : List PolyTerm) {m : Coeff}, m.cols = names.length → (∀ t ∈ ts, (t.1.map Prod.snd).sum ≤ 1 ∧ varName t ∈ names) →
    ∃ m', ts.foldlM (linearTerm idx row) m = .ok m' := by
  intro ts
  induction ts with
  | nil => intro m _ _; exact ⟨m, rfl⟩
  | cons t ts ih =>
    intro m hc h
    obtain ⟨hd, hn⟩ := h t (by simp)
    obtain ⟨j, hj⟩ := List.getElem?_of_mem hn
    have h1 := (linearTerm_spec (row := row) htab hc).2 ⟨hd, j, hj, rfl⟩
    obtain ⟨m', h2⟩ := ih (m := ⟨m.cols, fun a b => if a = row ∧ b = j then t.2 else m.at_ a b⟩) hc fun u hu => h u (by simp [hu])
    exact ⟨m', by rw [List.foldlM_cons, h1]; exact h2⟩

/-- the entries that the function accepts -/
def LinearEntry (C : CAS) (e : Sym) (names : List VName) : Prop :=
  isConst C e = false → ∀ t ∈ C.poly (C.simp e), (t.1.map Prod.snd).sum ≤ 1 ∧ varName t ∈ names

/-- what holds after the entries number `< row` have been processed -/
structure LinMat (C : CAS) (names : List VName) (row : ℕ) (done : List Sym) (m : Coeff) : Prop where
  cols : m.cols = names.length
  zero : ∀ i j, m.cols ≤ j → m.at_ i j = 0
  ok : ∀ e ∈ done, LinearEntry C e names
  val : ∀ (i : ℕ) (e : Sym), done[i]? = some e → ∀ g, m.rowG names g i = termSum C e g
  below : ∀ i, row ≤ i → ∀ j, m.at_ i j = 0

theorem linearEntry_spec (hC : C.Lawful) {idx : Dict VName ℕ} {names : List VName} (htab : IsTable idx names) {row : ℕ} {e : Sym} {m m' : Coeff}
    {done : List Sym} (hd : done.length = row) (lm : LinMat C names row done m) (h : linearEntry C idx row e m = .ok m') :
    LinMat C names (row + 1) (done ++ [e]) m' := by
  have hzero : ∀ g, m.rowG names g row = 0 := by
    intro g
    unfold Coeff.rowG
    apply Finset.sum_eq_zero
    intro j _
    rw [lm.below row le_rfl j]; simp
  have hcase : ∀ (i : ℕ) (e' : Sym), (done ++ [e])[i]? = some e' → (i = row ∧ e' = e) ∨ (i ≠ row ∧ done[i]? = some e') := by
    intro i e' hi
    by_cases hir : i = row
    · subst hir
      rw [List.getElem?_append_right (by omega), hd] at hi
      simp only [Nat.sub_self, List.getElem?_cons_zero, Option.some.injEq] at hi
      exact .inl ⟨rfl, hi.symm⟩
    · have hlt : i < done.length := by
        have := (List.getElem?_eq_some_iff.1 hi).1
        simp at this; omega
      rw [List.getElem?_append_left hlt] at hi
      exact .inr ⟨hir, hi⟩
  rw [linearEntry] at h
  split at h
  · rename_i hc
    rw [Coeff.put] at h
    split at h
    · rename_i hj
      injection h with h
      subst h
      refine ⟨lm.cols, ?_, ?_, ?_, ?_⟩
      · intro a b hb
        simp only at hb ⊢
        rw [if_neg (by rintro ⟨-, rfl⟩; omega)]
        exact lm.zero a b hb
      · intro u hu
        rcases List.mem_append.1 hu with hu | hu
        · exact lm.ok u hu
        · rw [List.mem_singleton] at hu; subst hu
          intro hc'; rw [hc] at hc'; cases hc'
      · intro i e' hi g
        rw [rowVal_put htab.one lm.cols (lm.below row le_rfl 0)]
        rcases hcase i e' hi with ⟨rfl, rfl⟩ | ⟨hir, hi⟩
        · rw [if_pos rfl, hzero, zero_add, termSum, if_pos hc]
        · rw [if_neg hir, add_zero, lm.val i e' hi]
      · intro i hi j
        simp only
        rw [if_neg (by rintro ⟨rfl, -⟩; omega)]
        exact lm.below i (by omega) j
    · simp at h
  · rename_i hc
    obtain ⟨gens, hg, hgen⟩ := hC.poly_gens (C.simp e)
    have li : LinInv names row [] m := ⟨lm.cols, lm.zero, by simp, fun g => by rw [hzero]; simp, fun j k _ _ => lm.below row le_rfl j,
      fun i hi => lm.below i (by omega)⟩
    obtain ⟨r1, r2⟩ := linearTerms_spec htab hg (C.poly (C.simp e)) [] li (by simpa using hgen) (by simpa using hC.poly_nodup (C.simp e)) h
    rw [List.nil_append] at r1
    refine ⟨r1.cols, r1.zero, ?_, ?_, fun i hi => r1.below i (by omega)⟩
    · intro u hu
      rcases List.mem_append.1 hu with hu | hu
      · exact lm.ok u hu
      · rw [List.mem_singleton] at hu; subst hu
        exact fun _ => r1.lin
    · intro i e' hi g
      rcases hcase i e' hi with ⟨rfl, rfl⟩ | ⟨hir, hi⟩
      · rw [r1.val, termSum, if_neg hc]
      · rw [← lm.val i e' hi g]
        unfold Coeff.rowG
        rw [r1.cols, lm.cols]
        exact Finset.sum_congr rfl fun j _ => by rw [r2 i hir j]

theorem linearEntries_spec (hC : C.Lawful) {idx : Dict VName ℕ} {names : List VName} (htab : IsTable idx names) :
    ∀ (es done : List Sym) {row : ℕ} {m m' : Coeff}, done.length = row → LinMat C names row done m →
    linearEntries C idx es row m = .ok m' → LinMat C names (row + es.length) (done ++ es) m' := by
  intro es
  induction es with
  | nil =>
    intro done row m m' _ lm h
    injection h with h
    subst h
    simpa using lm
  | cons e es ih =>
    intro done row m m' hd lm h
    rw [linearEntries] at h
    obtain ⟨m1, h1, h⟩ := Except.bind_ok_iff.1 h
    have := ih (done ++ [e]) (by simp [hd]) (linearEntry_spec hC htab hd lm h1) h
    have e1 : row + 1 + es.length = row + (e :: es).length := by simp; omega
    have e2 : done ++ [e] ++ es = done ++ e :: es := by simp
    rw [e1, e2] at this
    exact this

theorem linearEntries_ok (hC : C.Lawful) {idx : Dict VName ℕ} {names : List VName} (htab : IsTable idx names) :
    ∀ (es done : List Sym) {row : ℕ} {m : Coeff}, done.length = row → LinMat C names row done m →
    (∀ e ∈ es, LinearEntry C e names) → ∃ m', linearEntries C idx es row m = .ok m' := by
  intro es
  induction es with
  | nil => intro done row m _ _ _; exact ⟨m, rfl⟩
  | cons e es ih =>
    intro done row m hd lm he
    have h1 : ∃ m1, linearEntry C idx row e m = .ok m1 := by
      rw [linearEntry]
      split
      · have : (0 : ℕ) < m.cols := by rw [lm.cols]; exact (List.getElem?_eq_some_iff.1 htab.one).1
        simp [Coeff.put, this]
      · rename_i hc
        exact linearTerms_ok htab _ lm.cols (he e (by simp) (by simpa using hc))
    obtain ⟨m1, h1⟩ := h1
    obtain ⟨m', h2⟩ := ih (done ++ [e]) (by simp [hd]) (linearEntry_spec hC htab hd lm h1) fun e' he' => he e' (by simp [he'])
    exact ⟨m', by rw [linearEntries, h1]; exact h2⟩

theorem linMat_zero {idx : Dict VName ℕ} {names : List VName} (htab : IsTable idx names) : LinMat C names 0 [] ⟨idx.length, fun _ _ => 0⟩ :=
  ⟨htab.size, fun _ _ _ => rfl, by simp, by simp, fun _ _ _ => rfl⟩

theorem linearMatrix_spec (hC : C.Lawful) {idx : Dict VName ℕ} {names : List VName} (htab : IsTable idx names) {es : List Sym} {m : Coeff}
    (h : linearMatrix C es idx = .ok m) : LinMat C names es.length es m := by
  have := linearEntries_spec hC htab es [] rfl (linMat_zero htab) h
  simpa using this

theorem linearMatrix_ok (hC : C.Lawful) {idx : Dict VName ℕ} {names : List VName} (htab : IsTable idx names) {es : List Sym} :
    (∃ m, linearMatrix C es idx = .ok m) ↔ ∀ e ∈ es, LinearEntry C e names :=
  ⟨fun ⟨_, h⟩ => (linearMatrix_spec hC htab h).ok, linearEntries_ok hC htab es [] rfl (linMat_zero htab)⟩

theorem termSum_symVal (hC : C.Lawful) {e : Sym} {names : List VName} (h : LinearEntry C e names) (env : Name → ℝ) :
    termSum C e (VName.symVal env) = e.eval env := by
  rw [termSum]
  split
  · rename_i hc
    rw [isConst_eval hC hc]; simp [VName.symVal]
  · rename_i hc
    rw [← hC.simp_eval env e, ← hC.poly_eval env (C.simp e)]
    congr 1
    refine List.map_congr_left fun t ht => ?_
    rw [linear_val (h (by simpa using hc) t ht).1, prod_monoNames]

theorem sum_range_names {names : List VName} (f : ℕ → ℝ) (g : VName → ℝ) :
    ∑ j ∈ Finset.range names.length, f j * ((names[j]?).map g).getD 0 = ((names.zipIdx).map fun p => f p.2 * g p.1).sum := by
  have : ∀ (l : List VName) (k : ℕ), ∑ j ∈ Finset.range l.length, f (k + j) * ((l[j]?).map g).getD 0 = ((l.zipIdx k).map fun p => f p.2 * g p.1).sum := by
    intro l
    induction l with
    | nil => intro k; simp
    | cons a l ih =>
      intro k
      rw [List.length_cons, Finset.sum_range_succ', List.zipIdx_cons, List.map_cons, List.sum_cons, ← ih (k + 1)]
      simp only [List.getElem?_cons_succ, List.getElem?_cons_zero, Option.map_some, Option.getD_some, Nat.add_zero]
      rw [add_comm]
      congr 1
      exact Finset.sum_congr rfl fun j _ => by rw [show k + (j + 1) = k + 1 + j by omega]
  simpa using this names 0

/-- distinct names are linearly independent -/
theorem names_indep {names : List VName} (hn : names.Nodup) (f : ℕ → ℝ)
    (h : ∀ env : Name → ℝ, ∑ j ∈ Finset.range names.length, f j * ((names[j]?).map (VName.symVal env)).getD 0 = 0) :
    ∀ j < names.length, f j = 0 := by
  have hone : ∀ j, names[j]? = some .one → f j = 0 := by
    intro j hj
    have h0 := h fun _ => 0
    rw [Finset.sum_eq_single j] at h0
    · rw [hj] at h0; simpa [VName.symVal] using h0
    · intro k _ hk
      cases hx : names[k]? with
      | none => simp
      | some x =>
        cases x with
        | one => exact absurd ((List.getElem?_inj (List.getElem?_eq_some_iff.1 hx).1 hn).1 (hx.trans hj.symm)) hk
        | str s => simp [VName.symVal]
    · intro hk
      exact absurd (Finset.mem_range.2 (List.getElem?_eq_some_iff.1 hj).1) hk
  intro j hj
  cases hx : names[j] with
  | one => exact hone j (List.getElem?_eq_some_iff.2 ⟨hj, hx⟩)
  | str s =>
    have hjs : names[j]? = some (.str s) := List.getElem?_eq_some_iff.2 ⟨hj, hx⟩
    have h1 := h fun n => if n = s then 1 else 0
    rw [Finset.sum_eq_single j] at h1
    · rw [hjs] at h1; simpa [VName.symVal] using h1
    · intro k _ hk
      cases hy : names[k]? with
      | none => simp
      | some y =>
        cases y with
        | one => rw [hone k hy]; simp
        | str s' =>
          have : s' ≠ s := by
            rintro rfl
            exact hk ((List.getElem?_inj (List.getElem?_eq_some_iff.1 hy).1 hn).1 (hy.trans hjs.symm))
          simp [VName.symVal, this]
    · intro hk
      exact absurd (Finset.mem_range.2 hj) hk

end Verif
