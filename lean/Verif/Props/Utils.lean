import Verif.Proofs.Utils

/-!
# C48: `grid_search`, C49: `matrix_to_diff_psd`

Axioms of every theorem: propext, Classical.choice, Quot.sound.
-/

namespace Verif

section grid
variable {α : Type} (f : α → Except Err (List (Option ℝ))) (params : List α) (start stop : ℕ)

/-- **C48**: `grid_search` returns `p` exactly if every run succeeds, the window is not of width zero, and `p` is the first parameter with the
least average. -/
theorem C48_first_best (p : α) : gridSearch f params start stop = .ok p ↔
    (∀ q ∈ params, ∃ r, f q = .ok r) ∧ start ≠ stop ∧ FirstBest f start stop params p := by
  constructor
  · intro h
    unfold gridSearch at h
    cases hl : gridLoop f start stop params none with
    | error e => rw [hl] at h; cases h
    | ok b =>
      rw [hl] at h
      simp only [bind, Except.bind] at h
      cases b with
      | none => cases h
      | some b =>
        cases h
        obtain ⟨h1, h2⟩ := gridLoop_ok_all _ _ _ hl
        have hne : start ≠ stop := h2 (by rintro rfl; cases hl)
        obtain ⟨b', h3, h4⟩ := gridLoop_spec hne params none h1
        rw [hl] at h3
        cases h3
        refine ⟨h1, hne, ?_⟩
        rcases h4 with ⟨h5, -⟩ | ⟨i, q, v, h5, h6, h7, -, h8⟩
        · cases h5
        · cases h5
          exact ⟨i, v, h6, h7, h8⟩
  · rintro ⟨h1, hne, i, v, h2, h3, h4⟩
    obtain ⟨b, h5, h6⟩ := gridLoop_spec hne params none h1
    unfold gridSearch
    rw [h5]
    simp only [bind, Except.bind]
    rcases h6 with ⟨rfl, h7⟩ | ⟨j, q, w, rfl, h7, h8, -, h9⟩
    · obtain ⟨_, _, h8, -⟩ := h7 p (List.mem_of_getElem? h2) v h3
      cases h8
    · have hij : i = j := by
        obtain ⟨a1, a2⟩ := h4 j q w h7 h8
        obtain ⟨a3, a4⟩ := h9 i p v h2 h3
        rcases lt_trichotomy i j with h | h | h
        · exact absurd (a4 h) (not_lt.2 a1)
        · exact h
        · exact absurd (a2 h) (not_lt.2 a3)
      subst hij
      rw [h2] at h7
      cases h7
      rfl

/-- **C48**, no candidate: if every run succeeds and the window is not of width zero, the call raises `UnboundLocalError` exactly if no
parameter has a finite average (an empty list in particular). -/
theorem C48_unbound (h1 : ∀ q ∈ params, ∃ r, f q = .ok r) (hne : start ≠ stop) : gridSearch f params start stop = .error .unbound ↔
    ∀ q ∈ params, ∀ v, ¬ WindowAverage f start stop q v := by
  obtain ⟨b, h5, h6⟩ := gridLoop_spec hne params none h1
  unfold gridSearch
  rw [h5]
  simp only [bind, Except.bind]
  rcases h6 with ⟨rfl, h7⟩ | ⟨j, q, w, rfl, h7, h8, -, h9⟩
  · refine ⟨fun _ q hq v hv => ?_, fun _ => rfl⟩
    obtain ⟨_, _, h8, -⟩ := h7 q hq v hv
    cases h8
  · exact ⟨fun h => (nomatch h), fun h => absurd h8 (h q (List.mem_of_getElem? h7) w)⟩

/-- **C48**, exceptions: the first run that raises an exception ends the search with that exception -/
theorem C48_raise (pre post : List α) (q : α) (e : Err) (h1 : ∀ q ∈ pre, ∃ r, f q = .ok r) (hne : start ≠ stop) (hq : f q = .error e) :
    gridSearch f (pre ++ q :: post) start stop = .error e := by
  have : ∀ (pre : List α), (∀ q ∈ pre, ∃ r, f q = .ok r) → ∀ best, gridLoop f start stop (pre ++ q :: post) best = .error e := by
    intro pre
    induction pre with
    | nil =>
      intro _ best
      rw [List.nil_append, gridLoop, hq]
      rfl
    | cons p pre ih =>
      intro h best
      obtain ⟨r, hr⟩ := h p List.mem_cons_self
      obtain ⟨s, hs⟩ := windowScore_ok hne r
      rw [List.cons_append, gridLoop, hr]
      simp only [bind, Except.bind, hs]
      exact ih (fun q hq => h q (List.mem_cons_of_mem _ hq)) _
  unfold gridSearch
  rw [this pre h1]
  rfl

end grid

/-- **C48**, the score is an average: if the list of a run has at least `stop` entries, the score is the mean of `stop - start` of them -/
theorem C48_mean {α : Type} (f : α → Except Err (List (Option ℝ))) (start stop : ℕ) (hlt : start < stop) (p : α) (w : List ℝ) (hw : stop ≤ w.length)
    (hp : f p = .ok (w.map some)) : WindowAverage f start stop p (((w.take stop).drop start).sum / (((w.take stop).drop start).length : ℝ)) := by
  refine ⟨_, (w.take stop).drop start, hp, by rw [← List.map_take, ← List.map_drop], ?_⟩
  rw [List.length_drop, List.length_take, min_eq_left hw, Nat.cast_sub hlt.le]

/-- **C48**, negative finding: with lists shorter than the window the score is not a mean, and a run with no entry in the window counts as
perfect: it wins against every run with positive values. -/
theorem C48_short_list {α : Type} (f : α → Except Err (List (Option ℝ))) (start stop : ℕ) (hlt : start < stop) (p q : α) (w : List (Option ℝ))
    (hw : w.length ≤ start) (hp : f p = .ok w) (u : List ℝ) (hq : f q = .ok (u.map some)) (hu : stop ≤ u.length) (hpos : ∀ x ∈ u, 0 < x) :
    gridSearch f [q, p] start stop = .ok p := by
  rw [C48_first_best]
  have hz : WindowAverage f start stop p 0 := by
    refine ⟨w, [], hp, ?_, by simp⟩
    rw [List.map_nil, List.drop_eq_nil_iff, List.length_take]
    exact (min_le_right _ _).trans hw
  have hm := C48_mean f start stop hlt q u hu hq
  have hgt : 0 < ((u.take stop).drop start).sum / (((u.take stop).drop start).length : ℝ) := by
    have hne : (u.take stop).drop start ≠ [] := by
      rw [Ne, List.drop_eq_nil_iff, List.length_take, min_eq_left hu]
      omega
    have hlen : 0 < ((u.take stop).drop start).length := List.length_pos_iff.2 hne
    have : 0 < ((u.take stop).drop start).sum := List.sum_pos _ (fun x hx => hpos x (List.mem_of_mem_take (List.mem_of_mem_drop hx))) hne
    positivity
  refine ⟨fun x hx => ?_, hlt.ne, 1, 0, rfl, hz, fun j x v hj hv => ?_⟩
  · simp only [List.mem_cons, List.not_mem_nil, or_false] at hx
    rcases hx with rfl | rfl
    exacts [⟨_, hq⟩, ⟨_, hp⟩]
  · rcases j with _ | _ | j
    · simp only [List.getElem?_cons_zero, Option.some.injEq] at hj
      subst hj
      rw [← windowAverage_unique hm hv]
      exact ⟨hgt.le, fun _ => hgt⟩
    · simp only [zero_add, List.getElem?_cons_succ, List.getElem?_cons_zero, Option.some.injEq] at hj
      subst hj
      rw [← windowAverage_unique hz hv]
      exact ⟨le_rfl, fun h => absurd h (by omega)⟩
    · simp at hj

/-- two runs with five entries each, window 1 to 3 -/
example : gridSearch (fun b : Bool => .ok (if b then [some 9, some 1, some 3, some 7, none] else [none, some 1, some 5, none, some 0])) [false, true] 1 3 = .ok true := by
  rw [C48_first_best]
  have ht : WindowAverage (fun b : Bool => .ok (if b then [some 9, some 1, some 3, some 7, none] else [none, some 1, some 5, none, some 0])) 1 3 true 2 :=
    ⟨_, [1, 3], rfl, rfl, by norm_num⟩
  have hf : WindowAverage (fun b : Bool => .ok (if b then [some 9, some 1, some 3, some 7, none] else [none, some 1, some 5, none, some 0])) 1 3 false 3 :=
    ⟨_, [1, 5], rfl, rfl, by norm_num⟩
  refine ⟨fun q _ => ⟨_, rfl⟩, by norm_num, 1, 2, rfl, ht, fun j q w hj hw => ?_⟩
  rcases j with _ | _ | j
  · cases hj
    rw [← windowAverage_unique hf hw]
    norm_num
  · cases hj
    rw [← windowAverage_unique ht hw]
    norm_num
  · simp at hj

section split
variable {n : ℕ}

theorem spectralPart_psd {ev : Fin n → ℝ} {V : Matrix (Fin n) (Fin n) ℝ} {s : Fin n → Bool} (h : ∀ k, s k = true → 0 ≤ ev k) :
    PSDMat (spectralPart ev V V.transpose s) := by
  constructor
  · ext i j
    simp only [Matrix.transpose_apply, spectralPart]
    refine Finset.sum_congr rfl fun k _ => ?_
    split
    · ring
    · rfl
  · intro x
    have : ∑ i, ∑ j, x i * spectralPart ev V V.transpose s i j * x j = ∑ k, if s k then ev k * (∑ i, x i * V i k) ^ 2 else 0 := by
      simp only [spectralPart, Finset.mul_sum, Finset.sum_mul]
      rw [Finset.sum_congr rfl fun i _ => Finset.sum_comm, Finset.sum_comm]
      refine Finset.sum_congr rfl fun k _ => ?_
      split
      · rw [sq, Finset.sum_mul_sum, Finset.mul_sum]
        refine Finset.sum_congr rfl fun i _ => ?_
        rw [Finset.mul_sum]
        refine Finset.sum_congr rfl fun j _ => ?_
        rw [Matrix.transpose_apply]
        ring
      · simp
    rw [this]
    refine Finset.sum_nonneg fun k _ => ?_
    split
    · rename_i hk
      exact mul_nonneg (h k hk) (sq_nonneg _)
    · exact le_rfl

theorem spectralPart_neg (ev : Fin n → ℝ) (V U : Matrix (Fin n) (Fin n) ℝ) (s : Fin n → Bool) :
    -spectralPart ev V U s = spectralPart (fun k => -ev k) V U s := by
  ext i j
  simp only [Matrix.neg_apply, spectralPart, ← Finset.sum_neg_distrib]
  refine Finset.sum_congr rfl fun k _ => ?_
  split
  · ring
  · simp

theorem spectralPart_all {ev : Fin n → ℝ} {V U A : Matrix (Fin n) (Fin n) ℝ} (h : Diagonalises ev V U A) : spectralPart ev V U (fun _ => true) = A := by
  ext i j
  rw [h.eq]
  simp [spectralPart]

theorem spectralPart_split (ev : Fin n → ℝ) (V U : Matrix (Fin n) (Fin n) ℝ) (s : Fin n → Bool) :
    spectralPart ev V U s + spectralPart ev V U (fun k => !s k) = spectralPart ev V U fun _ => true := by
  ext i j
  simp only [Matrix.add_apply, spectralPart, ← Finset.sum_add_distrib]
  refine Finset.sum_congr rfl fun k _ => ?_
  by_cases h : s k = true <;> simp [h]

theorem spectralPart_mul {ev : Fin n → ℝ} {V U : Matrix (Fin n) (Fin n) ℝ} (h : V * U = 1) (s : Fin n → Bool) :
    spectralPart ev V U s * spectralPart ev V U (fun k => !s k) = 0 := by
  have hU : U * V = 1 := mul_eq_one_comm.1 h
  ext i j
  simp only [Matrix.mul_apply, spectralPart, Matrix.zero_apply, Finset.sum_mul_sum]
  rw [Finset.sum_comm]
  refine Finset.sum_eq_zero fun k _ => ?_
  rw [Finset.sum_comm]
  refine Finset.sum_eq_zero fun l _ => ?_
  have h1 : ∀ m, (if s k then ev k * V i k * U k m else 0) * (if !s l then ev l * V m l * U l j else 0) =
      (if s k && !s l then ev k * V i k * (ev l * U l j) else 0) * (U k m * V m l) := by
    intro m
    cases s k <;> cases s l <;> simp <;> ring
  simp only [h1, ← Finset.mul_sum]
  have h2 : ∑ m, U k m * V m l = if k = l then 1 else 0 := by
    rw [← Matrix.mul_apply, hU, Matrix.one_apply]
  rw [h2]
  by_cases hkl : k = l
  · subst hkl
    cases s k <;> simp
  · simp [hkl]

theorem Diagonalises.permute {ev : Fin n → ℝ} {V U A : Matrix (Fin n) (Fin n) ℝ} (h : Diagonalises ev V U A) (σ : Equiv.Perm (Fin n)) :
    Diagonalises (fun k => ev (σ k)) (fun i k => V i (σ k)) (fun k j => U (σ k) j) A := by
  constructor
  · rw [← h.inv]
    ext i j
    simp only [Matrix.mul_apply]
    exact Equiv.sum_comp σ fun k => V i k * U k j
  · intro i j
    rw [h.eq]
    exact (Equiv.sum_comp σ fun k => ev k * V i k * U k j).symm

theorem allClose_refl (A : Matrix (Fin n) (Fin n) ℝ) : AllClose A A := fun i j => by
  rw [sub_self, abs_zero]
  positivity

/-- **C49**: for a symmetric matrix, whatever orthonormal eigendecomposition `eigh` and whatever sorting permutation `argsort` return, the call
succeeds, both parts are positive semidefinite, their difference is the matrix and their product is zero. -/
theorem C49_symmetric (eigh eig : Matrix (Fin n) (Fin n) ℝ → (Fin n → ℝ) × Matrix (Fin n) (Fin n) ℝ)
    (inv : Matrix (Fin n) (Fin n) ℝ → Except Err (Matrix (Fin n) (Fin n) ℝ)) (argsort : (Fin n → ℝ) → Equiv.Perm (Fin n))
    (A : Matrix (Fin n) (Fin n) ℝ) (hA : A.transpose = A) (heig : Diagonalises (eigh A).1 (eigh A).2 (eigh A).2.transpose A)
    (hsort : Monotone fun k => (eigh A).1 (argsort (eigh A).1 k)) :
    ∃ P M : PartMat n, matrixToDiffPsd eigh eig inv argsort A = .ok (P, M) ∧ PSDMat P.get ∧ PSDMat M.get ∧ A = P.get - M.get ∧
      P.get * M.get = 0 := by
  set σ := argsort (eigh A).1 with hσ
  set ev : Fin n → ℝ := fun k => (eigh A).1 (σ k) with hev
  set V : Matrix (Fin n) (Fin n) ℝ := fun i k => (eigh A).2 i (σ k) with hV
  have hd : Diagonalises ev V V.transpose A := heig.permute σ
  have key : ∀ parts : PartMat n × PartMat n, splitParts A ev V V.transpose = parts →
      PSDMat parts.1.get ∧ PSDMat parts.2.get ∧ A = parts.1.get - parts.2.get ∧ parts.1.get * parts.2.get = 0 := by
    intro parts hparts
    unfold splitParts at hparts
    have hzero : PSDMat (0 : Matrix (Fin n) (Fin n) ℝ) := ⟨by simp, fun x => by simp⟩
    cases hp : firstPos ev with
    | none =>
      rw [hp] at hparts
      subst hparts
      have hneg : ∀ k, ev k ≤ 0 := by
        intro k
        unfold firstPos at hp
        rw [List.find?_eq_none] at hp
        simpa using hp k (List.mem_finRange k)
      refine ⟨hzero, ?_, by simp [PartMat.get], by simp [PartMat.get]⟩
      change PSDMat (-A)
      rw [← spectralPart_all hd, spectralPart_neg]
      exact spectralPart_psd fun k _ => by linarith [hneg k]
    | some p =>
      rw [hp] at hparts
      unfold firstPos at hp
      have hpos : 0 < ev p := by simpa using List.find?_some hp
      have hge : ∀ k, p ≤ k → 0 ≤ ev k := fun k hk => hpos.le.trans (hsort hk)
      have hlt : ∀ k, k < p → ev k ≤ 0 := by
        intro k hk
        by_contra hcon
        rw [List.find?_eq_some_iff_getElem] at hp
        obtain ⟨-, i, hi, h1, h2⟩ := hp
        have hip : i = p.val := by
          rw [List.getElem_finRange] at h1
          exact congrArg Fin.val h1
        have := h2 k.val (by rw [hip]; exact hk)
        rw [List.getElem_finRange] at this
        simp only [Fin.cast_mk, Fin.eta, Bool.not_eq_true', decide_eq_false_iff_not] at this
        exact this (not_le.1 hcon)
      simp only at hparts
      split at hparts
      · subst hparts
        have hcompl : (fun k => decide (k < p)) = fun k => !decide (p ≤ k) := by
          funext k
          rw [Bool.eq_iff_iff]
          simp
        refine ⟨spectralPart_psd fun k hk => hge k (by simpa using hk), ?_, ?_, ?_⟩
        · change PSDMat (-_)
          rw [spectralPart_neg]
          exact spectralPart_psd fun k hk => by linarith [hlt k (by simpa using hk)]
        · change A = spectralPart ev V V.transpose _ - -spectralPart ev V V.transpose _
          rw [sub_neg_eq_add, hcompl, spectralPart_split, spectralPart_all hd]
        · change spectralPart ev V V.transpose _ * -spectralPart ev V V.transpose _ = 0
          rw [mul_neg, hcompl, spectralPart_mul hd.inv, neg_zero]
      · rename_i hp0
        subst hparts
        refine ⟨?_, hzero, by simp [PartMat.get], by simp [PartMat.get]⟩
        change PSDMat A
        rw [← spectralPart_all hd]
        exact spectralPart_psd fun k _ => hge k (Fin.le_def.2 (by omega))
  unfold matrixToDiffPsd
  rw [if_pos (hA.symm ▸ allClose_refl A)]
  simp only [bind, Except.bind]
  obtain ⟨h1, h2, h3, h4⟩ := key _ rfl
  refine ⟨_, _, if_pos ?_, h1, h2, h3, h4⟩
  exact h3 ▸ allClose_refl A

/-- the upper triangular matrix `[[1, 10], [0, 2]]` -/
def upperTwo : Matrix (Fin 2) (Fin 2) ℝ := !![1, 10; 0, 2]

/-- **C49**, negative finding: for a matrix that is not symmetric the "positive semidefinite" part need not be one.  With any correct
eigendecomposition of `[[1, 10], [0, 2]]` the call succeeds and returns the matrix itself and 0, although its quadratic form takes negative
values. -/
theorem C49_nonsymmetric : ∃ A : Matrix (Fin 2) (Fin 2) ℝ, (∃ x : Fin 2 → ℝ, ∑ i, ∑ j, x i * A i j * x j < 0) ∧
    ∀ (eigh eig : Matrix (Fin 2) (Fin 2) ℝ → (Fin 2 → ℝ) × Matrix (Fin 2) (Fin 2) ℝ)
      (inv : Matrix (Fin 2) (Fin 2) ℝ → Except Err (Matrix (Fin 2) (Fin 2) ℝ)) (argsort : (Fin 2 → ℝ) → Equiv.Perm (Fin 2))
      (U : Matrix (Fin 2) (Fin 2) ℝ), inv (eig A).2 = .ok U → (∀ k, 0 < (eig A).1 k) →
      matrixToDiffPsd eigh eig inv argsort A = .ok (.mat A, .zero) := by
  refine ⟨upperTwo, ⟨![1, -1], by simp [upperTwo, Fin.sum_univ_two]; norm_num⟩, fun eigh eig inv argsort U hU hpos => ?_⟩
  have hns : ¬ AllClose upperTwo upperTwo.transpose := by
    intro h
    have := h 0 1
    simp only [upperTwo, Matrix.transpose_apply, Matrix.of_apply, Matrix.cons_val', Matrix.cons_val_zero, Matrix.cons_val_one] at this
    norm_num at this
  unfold matrixToDiffPsd
  rw [if_neg hns, hU]
  simp only [bind, Except.bind, Except.map]
  have hf : firstPos (fun k => (eig upperTwo).1 (argsort (eig upperTwo).1 k)) = some 0 := by
    unfold firstPos
    rw [List.finRange_succ]
    simp [hpos]
  have hp : splitParts upperTwo (fun k => (eig upperTwo).1 (argsort (eig upperTwo).1 k)) (fun i k => (eig upperTwo).2 i (argsort (eig upperTwo).1 k))
      (fun k j => U (argsort (eig upperTwo).1 k) j) = (.mat upperTwo, .zero) := by
    unfold splitParts
    rw [hf]
    simp
  rw [hp]
  refine if_pos ?_
  simp only [PartMat.get, sub_zero]
  exact allClose_refl _

/-- a correct decomposition of that matrix, all eigenvalues positive -/
example : Diagonalises (n := 2) ![1, 2] !![1, 10; 0, 1] !![1, -10; 0, 1] upperTwo ∧ ∀ k, 0 < (![1, 2] : Fin 2 → ℝ) k := by
  refine ⟨⟨?_, fun i j => ?_⟩, fun k => ?_⟩
  · ext i j
    fin_cases i <;> fin_cases j <;> simp [Matrix.mul_apply, Fin.sum_univ_two]
  · fin_cases i <;> fin_cases j <;> simp [upperTwo, Fin.sum_univ_two] <;> norm_num
  · fin_cases k <;> simp

/-- a symmetric matrix with eigenvalues of both signs, its decomposition and the sorting permutation satisfy the hypotheses of `C49_symmetric` -/
example : ∃ (A V : Matrix (Fin 2) (Fin 2) ℝ) (ev : Fin 2 → ℝ) (σ : Equiv.Perm (Fin 2)), A.transpose = A ∧ Diagonalises ev V V.transpose A ∧
    Monotone (fun k => ev (σ k)) ∧ A ≠ 0 ∧ firstPos (fun k => ev (σ k)) = some 1 := by
  refine ⟨!![-7, 24; 24, 7], !![3 / 5, 4 / 5; 4 / 5, -3 / 5], ![25, -25], Equiv.swap 0 1, ?_, ⟨?_, fun i j => ?_⟩, ?_, ?_, ?_⟩
  · ext i j; fin_cases i <;> fin_cases j <;> rfl
  · ext i j
    fin_cases i <;> fin_cases j <;> simp [Matrix.mul_apply, Fin.sum_univ_two] <;> norm_num
  · fin_cases i <;> fin_cases j <;> simp [Fin.sum_univ_two] <;> norm_num
  · intro i j hij
    fin_cases i <;> fin_cases j <;> simp at hij ⊢ <;> norm_num
  · intro h
    have := congrFun (congrFun h 0) 0
    simp at this
  · unfold firstPos
    rw [List.finRange_succ, List.finRange_succ]
    simp

end split
end Verif
