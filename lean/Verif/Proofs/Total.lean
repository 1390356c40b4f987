import Verif.Proofs.NlpIff
import Verif.Proofs.Poly
import Mathlib.Data.Finsupp.Multiset

/-!
# The conversion of the dual equations raises no error
-/

namespace Verif
open MvPolynomial

variable {C : CAS}

/-! ### Monomials with nonzero coefficient -/

theorem coeff_num (c : ℚ) {m : Name →₀ ℕ} (h : coeff m (Sym.num c).toMv ≠ 0) : m = 0 := by
  rw [Sym.toMv, coeff_C] at h
  by_contra hh
  exact h (if_neg fun h' => hh h'.symm)

theorem coeff_linear (c : ℚ) (n : Name) {m : Name →₀ ℕ} (h : coeff m (Sym.num c * Sym.var n).toMv ≠ 0) : m = Finsupp.single n 1 := by
  change coeff m (MvPolynomial.C c * MvPolynomial.X n) ≠ 0 at h
  rw [coeff_C_mul, coeff_X] at h
  by_contra hh
  exact h (by rw [if_neg fun h' => hh h'.symm, mul_zero])

theorem toMv_add (a b : Sym) : (a + b).toMv = a.toMv + b.toMv := rfl
theorem toMv_mul (a b : Sym) : (a * b).toMv = a.toMv * b.toMv := rfl

theorem coeff_foldl {ι : Type} (f : ι → Sym) (m : Name →₀ ℕ) : ∀ (l : List ι) (acc : Sym),
    coeff m (l.foldl (fun acc t => acc + f t) acc).toMv ≠ 0 → coeff m acc.toMv ≠ 0 ∨ ∃ t ∈ l, coeff m (f t).toMv ≠ 0 := by
  intro l
  induction l with
  | nil => exact fun acc h => Or.inl h
  | cons t l ih =>
    intro acc h
    rcases ih _ h with h | ⟨u, hu, h⟩
    · rw [toMv_add, coeff_add] at h
      by_cases h1 : coeff m acc.toMv = 0
      · right; refine ⟨t, by simp, fun h2 => h ?_⟩
        rw [h1, h2, add_zero]
      · exact Or.inl h1
    · exact Or.inr ⟨u, by simp [hu], h⟩

theorem coeff_sumTerms {ι : Type} (f : ι → Sym) (m : Name →₀ ℕ) (l : List ι) (h : coeff m (l.foldl (fun acc t => acc + f t) (Sym.num 0)).toMv ≠ 0) :
    ∃ t ∈ l, coeff m (f t).toMv ≠ 0 := by
  rcases coeff_foldl f m l _ h with h | h
  · exact absurd (by rw [Sym.toMv, map_zero, coeff_zero]) h
  · exact h

theorem coeff_vars {e : Sym} : ∀ {m : Name →₀ ℕ}, coeff m e.toMv ≠ 0 → ∀ n, m n ≠ 0 → n ∈ e.vars := by
  induction e with
  | num c =>
    intro m h n hn
    rw [coeff_num c h] at hn
    exact absurd rfl hn
  | var k =>
    intro m h n hn
    rw [Sym.toMv, coeff_X] at h
    have : Finsupp.single k 1 = m := by
      by_contra hh
      exact h (if_neg hh)
    rw [← this, Finsupp.single_apply] at hn
    by_cases hk : k = n
    · rw [hk]; simp [Sym.vars]
    · exact absurd (if_neg hk) hn
  | add a b iha ihb =>
    intro m h n hn
    rw [Sym.toMv, coeff_add] at h
    rw [Sym.vars, List.mem_append]
    by_cases h1 : coeff m a.toMv = 0
    · refine Or.inr (ihb (fun h2 => h ?_) n hn)
      rw [h1, h2, add_zero]
    · exact Or.inl (iha h1 n hn)
  | mul a b iha ihb =>
    intro m h n hn
    rw [Sym.toMv, coeff_mul] at h
    obtain ⟨x, hx, hxn⟩ := Finset.exists_ne_zero_of_sum_ne_zero h
    have hsum := Finset.mem_antidiagonal.1 hx
    rw [Sym.vars, List.mem_append]
    rw [← hsum, Finsupp.add_apply] at hn
    by_cases h1 : x.1 n = 0
    · exact Or.inr (ihb (right_ne_zero_of_mul hxn) n (by omega))
    · exact Or.inl (iha (left_ne_zero_of_mul hxn) n h1)

/-- a monomial of `Σ sᵢ eᵢ - o` with nonzero coefficient is `sᵢ` times a monomial of some `eᵢ`, or a monomial of `o` -/
theorem coeff_combination {ι : Type} {e o : Sym} {l : List ι} {s : ι → Name} {f : ι → Sym}
    (h : ∀ env : Name → ℝ, e.eval env = (l.map fun i => env (s i) * (f i).eval env).sum - o.eval env) {m : Name →₀ ℕ} (hm : coeff m e.toMv ≠ 0) :
    (∃ i ∈ l, ∃ m', m = Finsupp.single (s i) 1 + m' ∧ ∀ n, m' n ≠ 0 → n ∈ (f i).vars) ∨ ∀ n, m n ≠ 0 → n ∈ o.vars := by
  have hfold : ∀ (l : List ι) (acc : Sym) (env : Name → ℝ), (l.foldl (fun acc i => acc + Sym.var (s i) * f i) acc).eval env =
      acc.eval env + (l.map fun i => env (s i) * (f i).eval env).sum := by
    intro l
    induction l with
    | nil => intro acc env; simp
    | cons i l ih => intro acc env; rw [List.foldl_cons, ih]; simp [add_assoc]
  have he : e.toMv = (l.foldl (fun acc i => acc + Sym.var (s i) * f i) (Sym.num 0) + Sym.num (-1) * o).toMv := Sym.toMv_congr fun env => by
    rw [h env, Sym.eval_add, hfold]
    simp [sub_eq_add_neg]
  rw [he, toMv_add, coeff_add] at hm
  by_cases h1 : coeff m (Sym.num (-1) * o).toMv = 0
  · left
    rw [h1, add_zero] at hm
    obtain ⟨i, hi, hc⟩ := coeff_sumTerms _ m l hm
    rw [toMv_mul] at hc
    change coeff m (X (s i) * (f i).toMv) ≠ 0 at hc
    rw [coeff_X_mul'] at hc
    have hs : s i ∈ m.support := by
      by_contra hh
      exact hc (if_neg hh)
    rw [if_pos hs] at hc
    refine ⟨i, hi, m - Finsupp.single (s i) 1, ?_, coeff_vars hc⟩
    rw [add_comm]
    refine (tsub_add_cancel_of_le ?_).symm
    rw [Finsupp.single_le_iff]
    exact Nat.one_le_iff_ne_zero.2 (Finsupp.mem_support_iff.1 hs)
  · right
    refine coeff_vars (e := o) fun h2 => h1 ?_
    rw [toMv_mul]
    change coeff m (MvPolynomial.C (-1) * o.toMv) = 0
    rw [coeff_C_mul, h2, mul_zero]

/-! ### Terms of polynomials -/

theorem count_monoNames_expo (t : PolyTerm) (n : Name) : (monoNames t).count n = t.expo n := by
  rw [monoNames, PolyTerm.expo]
  induction t.1 with
  | nil => rfl
  | cons p l ih =>
    rw [List.flatMap_cons, List.count_append, ih, List.map_cons, List.sum_cons, Finsupp.add_apply, List.count_replicate, Finsupp.single_apply]
    simp

theorem monoNames_toMultiset (t : PolyTerm) : (monoNames t : Multiset Name) = Finsupp.toMultiset t.expo := by
  ext n
  rw [Multiset.coe_count, count_monoNames_expo, Finsupp.count_toMultiset]

theorem coeff_of_monoNames (hC : C.Lawful) {e : Sym} {t : PolyTerm} (ht : t ∈ C.poly (C.simp e)) (h : monoNames t ≠ []) : coeff t.expo e.toMv ≠ 0 := by
  rw [← Sym.toMv_congr (hC.simp_eval · e), coeff_of_mem hC ht]
  intro h0
  apply h
  rw [monoNames, List.flatMap_eq_nil_iff]
  intro p hp
  rw [hC.poly_zero _ t ht h0 p hp, List.replicate_zero]

theorem monoParts_of_expo (hC : C.Lawful) {e : Sym} {t : PolyTerm} (ht : t ∈ C.poly e) :
    (t.expo = 0 → monoParts t = []) ∧ ∀ n, t.expo = Finsupp.single n 1 → monoParts t = splitU n := by
  obtain ⟨gens, hg, h1⟩ := hC.poly_gens e
  have hgt := h1 t ht
  have hex : ∀ p ∈ t.1, p.2 = t.expo p.1 := fun p hp => (expo_apply t.1 (hgt ▸ hg) p hp).symm
  constructor
  · intro h0
    rw [monoParts, List.flatMap_eq_nil_iff]
    intro p hp
    rw [hex p hp, h0]; rfl
  · intro n hn
    have hmem : n ∈ t.1.map Prod.fst := by
      by_contra hh
      have : t.expo n = 0 := by
        rw [← count_monoNames_expo, List.count_eq_zero]
        intro h2
        rw [monoNames, List.mem_flatMap] at h2
        obtain ⟨p, hp, h2⟩ := h2
        exact hh (List.mem_map.2 ⟨p, hp, (List.mem_replicate.1 h2).2.symm⟩)
      rw [hn] at this
      simp at this
    have key : ∀ l : List (Name × ℕ), (l.map Prod.fst).Nodup → (∀ p ∈ l, p.2 = if p.1 = n then 1 else 0) → 
        (l.flatMap fun p => (List.replicate p.2 (splitU p.1)).flatten) = if n ∈ l.map Prod.fst then splitU n else [] := by
      intro l
      induction l with
      | nil => intro _ _; simp
      | cons p l ih =>
        intro hl hp
        rw [List.map_cons, List.nodup_cons] at hl
        rw [List.flatMap_cons, ih hl.2 fun q hq => hp q (by simp [hq]), hp p (by simp)]
        by_cases hpn : p.1 = n
        · rw [← hpn, if_pos rfl, if_neg hl.1]; simp
        · rw [if_neg hpn]
          simp only [List.replicate_zero, List.flatten_nil, List.nil_append, List.map_cons, List.mem_cons]
          have hnp : ¬ n = p.1 := fun h => hpn h.symm
          simp only [hnp, false_or]
    rw [monoParts, key t.1 (hgt ▸ hg), if_pos hmem]
    intro p hp
    rw [hex p hp, hn, Finsupp.single_apply]
    simp [eq_comm]

/-- the parts of a monomial of a linearized expression are the factors of a monomial of the expression -/
theorem linearize_parts (hC : C.Lawful) {e : Sym} (hc : isConst C e = false) (hv : ∀ u ∈ C.poly (C.simp e), ∀ n ∈ monoNames u, Plain n) {t : PolyTerm}
    (ht : t ∈ C.poly (C.simp (linearize C e))) :
    monoParts t = [] ∨ ∃ u ∈ C.poly (C.simp e), monoNames u ≠ [] ∧ (monoParts t).Perm (monoNames u) := by
  by_cases h0 : t.2 = 0
  · left
    rw [monoParts, List.flatMap_eq_nil_iff]
    intro p hp
    rw [hC.poly_zero _ t ht h0 p hp, List.replicate_zero]; rfl
  · have h1 : coeff t.expo (C.simp (linearize C e)).toMv ≠ 0 := by rw [coeff_of_mem hC ht]; exact h0
    rw [linearize, hc, if_neg (by simp), Sym.toMv_congr (hC.simp_eval · _), Sym.toMv_congr (hC.simp_eval · _), sumTerms] at h1
    obtain ⟨u, hu, h2⟩ := coeff_sumTerms linTerm _ _ h1
    rw [linTerm] at h2
    split at h2
    · rename_i hne
      right
      refine ⟨u, hu, hne, ?_⟩
      have hpl : ∀ n ∈ monoNames u, Plain n := hv u hu
      have hsne : sortNames (monoNames u) ≠ [] := fun hh => hne (sortNames_eq_nil.1 hh)
      have hpl' : ∀ n ∈ sortNames (monoNames u), Plain n := fun n hn => hpl n (mem_sortNames.1 hn)
      rw [(monoParts_of_expo hC ht).2 _ (coeff_linear _ _ h2), splitU_join_plain hsne hpl', sortNames_of_sorted (sortNames_pairwise _),
        splitU_join_plain hsne hpl']
      exact sortNames_perm _
    · left
      refine (monoParts_of_expo hC ht).1 ?_
      have : (Sym.num u.2 * Sym.num 1).toMv = (Sym.num u.2).toMv := Sym.toMv_congr fun env => by simp
      rw [this] at h2
      exact coeff_num _ h2

/-! ### Progress of the conversion -/

/-- the entry can be converted: every monomial has at most one multiplier and its symbols have solver variables -/
def Convertible (C : CAS) (st : CaState) (e : Sym) : Prop := isConst C e = false → ∀ t ∈ C.poly (C.simp e),
  (monoParts t).countP (fun n => decide (IsDual n)) ≤ 1 ∧ ∀ n ∈ monoParts t, HasVar st n

theorem Convertible.mono {st st' : CaState} (h : CaExt st st') {e : Sym} (he : Convertible C st e) : Convertible C st' e :=
  fun hc t ht => ⟨(he hc t ht).1, fun n hn => h.hasVar ((he hc t ht).2 n hn)⟩

theorem exprsToCasadi_total (hC : C.Lawful) : ∀ (es : List Sym) {st : CaState}, CaInv st → LongScalar st → (∀ e ∈ es, Convertible C st e) →
    ∃ r, exprsToCasadi C es st = .ok r := by
  intro es
  induction es with
  | nil => intro st _ _ _; exact ⟨_, rfl⟩
  | cons e es ih =>
    intro st i hs h
    obtain ⟨⟨y, st1⟩, hr⟩ : ∃ r, exprToCasadiLamb C e st = .ok r := by
      rw [exprToCasadiLamb]
      split
      · exact ⟨_, rfl⟩
      · rename_i hc
        exact lambTerms_ok _ i hs (h e (by simp) (by simpa using hc))
    obtain ⟨i1, e1, -, -⟩ := exprToCasadiLamb_spec hC i hr
    obtain ⟨⟨ys, st2⟩, hr'⟩ := ih i1 (e1.longScalar hs) fun u hu => (h u (by simp [hu])).mono e1
    refine ⟨(y :: ys, st2), ?_⟩
    rw [exprsToCasadi, Except.bind_ok_iff]; refine ⟨_, hr, ?_⟩
    rw [Except.bind_ok_iff]; exact ⟨_, hr', rfl⟩

theorem HasVar.of_scalar {st : CaState} {n : Name} (hd : ¬ IsDual n) (h : IsScalar st n) : HasVar st n := by
  obtain ⟨v, hv, h2⟩ := h
  rw [HasVar, if_neg hd]
  exact ⟨_, scalar_of_get hv h2⟩

theorem HasVar.of_lamb {st : CaState} {k i j : ℕ} {v : CaVar} (h : st.vars.get? (lambVar k) = some v) (hi : i < v.rows) (hj : j < v.cols) :
    HasVar st (lambName k i j) := by
  obtain ⟨h1, h2⟩ := C21_lamb k i j
  rw [HasVar, if_pos (show IsDual _ from Or.inl h1)]
  refine ⟨_, _, _, .var v.id i j, h2, ?_⟩
  rw [CaState.entry, show "lamb" ++ toString k = lambVar k from rfl, h]
  simp [hi, hj]

theorem HasVar.of_nu {st : CaState} {i j : ℕ} {v : CaVar} (h : st.vars.get? "nu0" = some v) (hi : i < v.rows) (hj : j < v.cols) :
    HasVar st (nuName 0 i j) := by
  obtain ⟨-, h1, h2⟩ := C21_nu 0 i j
  rw [HasVar, if_pos (show IsDual _ from Or.inr h1)]
  refine ⟨_, _, _, .var v.id i j, h2, ?_⟩
  rw [CaState.entry, show "nu" ++ toString 0 = "nu0" by decide +kernel, h]
  simp [hi, hj]

variable {sm : SymMats} {cons : List (ExId × Kind)} {ns : List ℕ} {dimG dimF : ℕ} {params : List Name} {bounds : List Bound} {init : List Name} {goal : Sym}
  {st : CaState} {pid : ℕ}

theorem Pre.hasVar (p : Pre cons ns dimG params bounds pid st) {key : SpKey} (hk : key ∈ expectedKeys cons ns) (hne : key ≠ .obj) : HasVar st key.name := by
  rw [expectedKeys] at hk
  rcases List.mem_append.1 hk with hk | hk
  · rcases List.mem_append.1 hk with hk | hk
    · rcases List.mem_append.1 hk with hk | hk
      · obtain ⟨i, hi, rfl⟩ := List.mem_map.1 hk
        have hi := List.mem_range.1 hi
        obtain ⟨v, hv, h1, h2⟩ := p.extra (by omega)
        exact HasVar.of_lamb (k := 0) (by rw [show lambVar 0 = "lamb0" by decide +kernel]; exact hv) (by omega) (by omega)
      · obtain ⟨idx, n, i, j, h1, rfl, h3, h4⟩ := mem_fnKeys_inv hk
        obtain ⟨v, hv, h5, h6⟩ := p.fns idx n h1
        exact HasVar.of_lamb hv (by omega) (by omega)
    · obtain ⟨i, hi, rfl⟩ := List.mem_map.1 hk
      have hi := List.mem_range.1 hi
      obtain ⟨v, hv, h1, h2⟩ := p.nu (by omega)
      exact HasVar.of_nu hv (by omega) (by omega)
  · rw [List.mem_singleton] at hk
    exact absurd hk hne

/-- an entry of the weighted sum of the matrices, minus the metric, can be converted -/
theorem convertible_entry (hC : C.Lawful) (p : Pre cons ns dimG params bounds pid st) (s : SimpleParams params) {ents : List (SpKey × FG)}
    (hkeys : ∀ en ∈ ents, en.1 ∈ expectedKeys cons ns ∧ en.1 ≠ .obj) {e o : Sym} {f : SpKey × FG → Sym}
    (hval : ∀ env : Name → ℝ, e.eval env = (ents.map fun en => env en.1.name * (f en).eval env).sum - o.eval env)
    (hf : ∀ en ∈ ents, ∀ n ∈ (f en).vars, n ∈ params) (ho : ∀ n ∈ o.vars, n ∈ params) :
    Convertible C st (linearize C e) := by
  intro hc t ht
  have hce : isConst C e = false := by
    by_contra hh
    rw [Bool.not_eq_false] at hh
    rw [linearize, if_pos hh, hh] at hc
    cases hc
  have hpar : ∀ n ∈ params, ¬ IsDual n ∧ HasVar st n := by
    intro n hn
    have hd := (s.names n (List.mem_append_left _ hn)).2.1
    exact ⟨hd, HasVar.of_scalar hd (p.scalars n (by rw [scalarNames]; simp [hn]))⟩
  have hv : ∀ u ∈ C.poly (C.simp e), ∀ n ∈ monoNames u, Plain n := by
    intro u hu n hn
    have hpl : ∀ n ∈ params, Plain n := fun n hn => (s.names n (List.mem_append_left _ hn)).1
    have hn0 : u.expo n ≠ 0 := by
      rw [← count_monoNames_expo]
      exact (List.count_pos_iff.2 hn).ne'
    rcases coeff_combination hval (coeff_of_monoNames hC hu (List.ne_nil_of_mem hn)) with ⟨en, hen, m', hm, hm'⟩ | hm
    · rw [hm, Finsupp.add_apply, Finsupp.single_apply] at hn0
      split at hn0
      · rename_i he
        rw [← he]
        cases hk : en.1 with
        | obj => exact absurd hk (hkeys en hen).2
        | tup a k i j => exact SpKey.name_plain
      · exact hpl n (hf en hen n (hm' n (by omega)))
    · exact hpl n (ho n (hm n hn0))
  rcases linearize_parts hC hce hv ht with h | ⟨u, hu, hne, hperm⟩
  · rw [h]; simp
  · have hmem : ∀ n, n ∈ monoParts t ↔ u.expo n ≠ 0 := by
      intro n
      rw [hperm.mem_iff, ← List.count_pos_iff, count_monoNames_expo]
      omega
    have hcnt : (monoParts t).countP (fun n => decide (IsDual n)) = (Finsupp.toMultiset u.expo).countP (fun n => IsDual n) := by
      rw [hperm.countP_eq, ← monoNames_toMultiset, Multiset.coe_countP]
    have hzero : ∀ m : Name →₀ ℕ, (∀ n, m n ≠ 0 → n ∈ params) → (Finsupp.toMultiset m).countP (fun n => IsDual n) = 0 := by
      intro m hm
      rw [Multiset.countP_eq_zero]
      intro n hn
      refine (hpar n (hm n ?_)).1
      rw [Finsupp.mem_toMultiset] at hn
      exact Finsupp.mem_support_iff.1 hn
    rcases coeff_combination hval (coeff_of_monoNames hC hu hne) with ⟨en, hen, m', hm, hm'⟩ | hm
    · have hm'' : ∀ n, m' n ≠ 0 → n ∈ params := fun n hn => hf en hen n (hm' n hn)
      refine ⟨?_, fun n hn => ?_⟩
      · rw [hcnt, hm, map_add, Multiset.countP_add, hzero m' hm'', Finsupp.toMultiset_single]
        simp only [one_smul, add_zero]
        refine le_trans (Multiset.countP_le_card _ _) ?_
        simp
      · rw [hmem, hm, Finsupp.add_apply, Finsupp.single_apply] at hn
        split at hn
        · rename_i he
          rw [← he]
          exact p.hasVar (hkeys en hen).1 (hkeys en hen).2
        · exact (hpar n (hm'' n (by omega))).2
    · refine ⟨?_, fun n hn => (hpar n (ho n (hm n ((hmem n).1 hn)))).2⟩
      rw [hcnt, hzero _ fun n hn => ho n (hm n hn)]
      omega

theorem ipoptFinish_ok (hC : C.Lawful) (p : Pre cons ns dimG params bounds pid st) (s : SimpleParams params)
    (hkeys : Dict.keys sm.spExp = expectedKeys cons ns)
    (hsum : ∃ ents obj, sm.spExp = ents ++ [(SpKey.obj, obj)] ∧ SumExt FG.zero ents sm.sum)
    (hocc : ∀ en ∈ sm.spExp, ∀ n, en.2.Occurs n → n ∈ params) (hgoal : ∀ n ∈ goal.vars, n ∈ scalarNames params)
    (hinit : ∀ n ∈ init, n ∈ "P" :: scalarNames params) : ∃ nlp, ipoptFinish C sm dimG dimF pid init goal st = .ok nlp := by
  have hn : (Dict.keys sm.spExp).Nodup := by rw [hkeys]; exact nodup_expectedKeys _ _
  obtain ⟨ents, obj, hs, hext⟩ := hsum
  obtain ⟨hfil, hget⟩ := DualFeasible.split hs hn
  have hobjm : (SpKey.obj, obj) ∈ sm.spExp := by rw [hs]; simp
  have hents : ∀ en ∈ ents, en.1 ∈ expectedKeys cons ns ∧ en.1 ≠ .obj := by
    intro en hen
    refine ⟨hkeys ▸ List.mem_map_of_mem (by rw [hs]; exact List.mem_append_left _ hen), ?_⟩
    rw [← hfil, List.mem_filter] at hen
    simpa using hen.2
  have hmem : ∀ en ∈ ents, en ∈ sm.spExp := fun en hen => by rw [hs]; exact List.mem_append_left _ hen
  have hF : ∀ k, Convertible C st (linearize C ((sm.sum.sub obj).F k)) := fun k => by
    refine convertible_entry hC p s hents (f := fun en => en.2.F k) (o := obj.F k) (fun env => ?_) (fun en hen n hh => hocc en (hmem en hen) n (Or.inl ⟨k, hh⟩))
      (fun n hh => hocc _ hobjm n (Or.inl ⟨k, hh⟩))
    simp only [FG.sub, Sym.eval_sub]
    rw [(hext env).1]
    simp [FG.zero]
  have hG : ∀ i j, Convertible C st (linearize C ((sm.sum.sub obj).G i j)) := fun i j => by
    refine convertible_entry hC p s hents (f := fun en => en.2.G i j) (o := obj.G i j) (fun env => ?_)
      (fun en hen n hh => hocc en (hmem en hen) n (Or.inr ⟨i, j, hh⟩)) (fun n hh => hocc _ hobjm n (Or.inr ⟨i, j, hh⟩))
    simp only [FG.sub, Sym.eval_sub]
    rw [(hext env).2]
    simp [FG.zero]
  have i0 := CaInv.of_plain p.good.wf p.good.plain
  have l0 : LongScalar st := fun kv hk hn => absurd (p.good.plain _ (List.mem_map_of_mem hk)) hn
  obtain ⟨⟨xs1, st1⟩, h1⟩ := exprsToCasadi_total hC ((simplifyMatrix C (sm.sum.sub obj)).flatF dimF) i0 l0 (by
    intro e he
    obtain ⟨k, -, rfl⟩ := List.mem_map.1 he
    exact hF k)
  obtain ⟨i1, e1, b1, -⟩ := exprsToCasadi_spec hC _ i0 h1
  obtain ⟨⟨xs2, st2⟩, h2⟩ := exprsToCasadi_total hC ((simplifyMatrix C (sm.sum.sub obj)).flatG dimG) i1 (e1.longScalar l0) (by
    intro e he
    obtain ⟨k, -, rfl⟩ := List.mem_map.1 he
    exact (hG _ _).mono e1)
  obtain ⟨i2, e2, b2, -⟩ := exprsToCasadi_spec hC _ i1 h2
  have e12 := e1.trans e2
  have hpid : pid < st.sizes.length := p.good.wf.ids _ (Dict.mem_of_get? p.P)
  have i3 := i2.subjectAll (cs := xs1.map fun x => .eq x (.num 0)) (by
    intro c hc
    obtain ⟨x, hx, rfl⟩ := List.mem_map.1 hc
    exact ⟨(b1 x hx).mono e2.sizes.length_le, trivial⟩)
  have i4 := i3.subjectAll (cs := xs2.zipIdx.map fun xi =>
      .eq (.add xi.1 (.mul (.num (-1)) (pptEntry pid dimG (xi.2 / dimG) (xi.2 % dimG)))) (.num 0)) (by
    intro c hc
    obtain ⟨⟨x, i⟩, hx, rfl⟩ := List.mem_map.1 hc
    have hx' := List.fst_mem_of_mem_zipIdx hx
    exact ⟨⟨b2 x hx', trivial, pptEntry_below (lt_of_lt_of_le hpid e12.sizes.length_le) _ _ _⟩, trivial⟩)
  set st4 := (st2.subjectAll (xs1.map fun x => .eq x (.num 0))).subjectAll (xs2.zipIdx.map fun xi =>
      .eq (.add xi.1 (.mul (.num (-1)) (pptEntry pid dimG (xi.2 / dimG) (xi.2 % dimG)))) (.num 0)) with hst4
  have hsc : ∀ n ∈ scalarNames params, IsScalar st4 n := by
    intro n hn
    obtain ⟨v, hv, h3⟩ := p.scalars n hn
    exact ⟨v, e12.get_some hv, h3⟩
  have hini : (init.all fun n => st4.vars.has n) = true := by
    rw [List.all_eq_true]
    intro n hn
    rcases List.mem_cons.1 (hinit n hn) with rfl | hn
    · have : st4.vars.get? "P" = some ⟨pid, dimG, dimG⟩ := e12.get_some p.P
      rw [Dict.has, this]; rfl
    · obtain ⟨v, hv, -⟩ := hsc n hn
      rw [Dict.has, hv]; rfl
  obtain ⟨⟨o, st5⟩, h5⟩ : ∃ r, exprToCasadi C goal st4 = .ok r := by
    rw [exprToCasadi]
    split
    · exact ⟨_, rfl⟩
    · refine plainTerms_ok _ i4 (e12.longScalar l0) fun t ht n hn => ?_
      have hm := monoParts_vars hC (fun m hm => (s.scalarNames (hgoal m hm)).1) ht n hn
      obtain ⟨v, hv, h3⟩ := hsc n (hgoal n hm)
      exact ⟨_, scalar_of_get hv h3⟩
  refine ⟨⟨st5, sm, .mul (.num (-1)) o, xs1, xs2⟩, ?_⟩
  rw [ipoptFinish, hget, Except.bind_ok_iff]; refine ⟨_, rfl, ?_⟩
  rw [Except.bind_ok_iff]; refine ⟨_, h1, ?_⟩
  rw [Except.bind_ok_iff]; refine ⟨_, h2, ?_⟩
  simp only
  rw [← hst4, if_pos hini, Except.bind_ok_iff]
  exact ⟨_, h5, rfl⟩

end Verif
