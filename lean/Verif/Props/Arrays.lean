import Verif.Proofs.Arrays

/-!
# C23, C24, C25: packed triangular matrices, selection matrices, packed multipliers
-/

namespace Verif

variable {R : Type} [CommSemiring R]

/-- **C23**, packing: `flatten_lower_tri` has `n (n + 1) / 2` entries; entry `(i, k)`, `k ≤ i`, is at position `i (i + 1) / 2 + k`. -/
theorem C23_pack (P : Mat R) : (flattenLowerTri P).length = P.rows * (P.rows + 1) / 2 ∧
    ∀ i < P.rows, ∀ k ≤ i, (flattenLowerTri P)[i * (i + 1) / 2 + k]? = some (P.at_ i k) :=
  ⟨length_flattenLowerTri P, fun _ hi _ hk => getElem?_flattenLowerTri P hi hk⟩

/-- **C23.** `get_PPt_element` on the packed vector is entry `(k1, k2)` of `L Lᵀ` for the lower triangular part `L` of `P`. -/
theorem C23_element (P : Mat R) {k1 k2 : ℕ} (h1 : k1 < P.rows) (h2 : k2 < P.rows) :
    getPPtElement (flattenLowerTri P) k1 k2 =
      ∑ k ∈ Finset.range P.rows, (if k ≤ k1 then P.at_ k1 k else 0) * (if k ≤ k2 then P.at_ k2 k else 0) := by
  rw [getPPtElement_eq (length_flattenLowerTri P) h1 h2]
  have key : ∀ i k, i < P.rows → unpack (flattenLowerTri P) i k = if k ≤ i then P.at_ i k else 0 := by
    intro i k hi
    rw [unpack]
    split
    · rename_i hk
      rw [List.getD_eq_getElem?_getD, getElem?_flattenLowerTri P hi hk, Option.getD_some]
    · rfl
  exact Finset.sum_congr rfl fun k _ => by rw [key _ _ h1, key _ _ h2]

/-- **C23**, all vectors: every vector of `n (n + 1) / 2` numbers is the packing of a lower triangular matrix. -/
theorem C23_unpack {n : ℕ} (v : List R) (hv : v.length = n * (n + 1) / 2) : flattenLowerTri ⟨n, n, unpack v⟩ = v := by
  have hl := length_flattenLowerTri (R := R) ⟨n, n, unpack v⟩
  apply List.ext_getElem?
  intro m
  rcases Nat.lt_or_ge m (startIdx n) with hm | hm
  · have : ∀ n m, m < startIdx n → ∃ i k, i < n ∧ k ≤ i ∧ m = startIdx i + k := by
      intro n
      induction n with
      | zero => intro m hm; simp [startIdx] at hm
      | succ n ih =>
        intro m hm
        rcases Nat.lt_or_ge m (startIdx n) with h | h
        · obtain ⟨i, k, h1, h2, h3⟩ := ih m h
          exact ⟨i, k, by omega, h2, h3⟩
        · rw [startIdx_succ] at hm
          exact ⟨n, m - startIdx n, by omega, by omega, by omega⟩
    obtain ⟨i, k, h1, h2, rfl⟩ := this n m hm
    rw [getElem?_flattenLowerTri _ h1 h2]
    simp only [unpack, if_pos h2]
    have : startIdx i + k < v.length := by rw [hv]; exact hm
    rw [List.getD_eq_getElem?_getD, List.getElem?_eq_getElem this]; rfl
  · rw [List.getElem?_eq_none (by rw [hl]; exact hm), List.getElem?_eq_none (by rw [hv]; exact hm)]

/-- **C23**, the diagonal: row `i` of the selector `Q` times the packed vector is `P i i`. -/
theorem C23_diag (P : Mat R) {i : ℕ} (hi : i < P.rows) : ((diagSel P.rows).mul (Mat.ofList (flattenLowerTri P))).at_ i 0 = P.at_ i i := by
  rw [diagSel_mul hi]
  simp only [Mat.ofList]
  rw [List.getD_eq_getElem?_getD, getElem?_flattenLowerTri P hi le_rfl, Option.getD_some]

/-- **C23**, the matrix version: with `S1`, `S2` from `get_PPt_matrix`, the trace of `S1ᵀ S2 x xᵀ` is `get_PPt_element` of the block of
`x` that starts at `ps`. -/
theorem C23_matrix (x : List R) {ps n k1 k2 : ℕ} (hx : x.length = ps + n * (n + 1) / 2) (h1 : k1 < n) (h2 : k2 < n) :
    (((getPPtMatrix x.length ps k1 k2).1.T.mul (getPPtMatrix x.length ps k1 k2).2).mul ((Mat.ofList x).mul (Mat.ofList x).T)).trace =
      getPPtElement (pySlice x ps x.length) k1 k2 := by
  have b1 := startIdx_lt h1
  have b2 := startIdx_lt h2
  have hx' : x.length = ps + startIdx n := hx
  rw [trace_gram _ _ (Mat.ofList x) _ _ _ rfl, getPPtElement, dotL_eq]
  · rw [length_pySlice _ (by rw [length_pySlice _ le_rfl]; omega), show startIdx k1 + min k1 k2 + 1 - startIdx k1 = min k1 k2 + 1 by omega]
    refine Finset.sum_congr rfl fun r hr => ?_
    have hr : r < min k1 k2 + 1 := Finset.mem_range.1 hr
    rw [getPPtMatrix, selMatrix_mul _ hr, selMatrix_mul _ hr, getD_pySlice _ (by omega), getD_pySlice _ (by omega), getD_pySlice _ (by omega),
      getD_pySlice _ (by omega)]
    simp only [Mat.ofList]
    rw [Nat.add_assoc, Nat.add_assoc]
  · rw [length_pySlice _ (by rw [length_pySlice _ le_rfl]; omega), length_pySlice _ (by rw [length_pySlice _ le_rfl]; omega)]; omega
  · rw [getPPtMatrix, selMatrix_cols]; simp only [Mat.ofList]; omega
  · rw [getPPtMatrix, selMatrix_cols]; simp only [Mat.ofList]; omega
  · rfl

/-- **C24.** The selection matrix times `x` is the slice. -/
theorem C24_select (x : List R) {vi : VecIdx} (h1 : vi.start ≤ vi.stop) (h2 : vi.stop ≤ x.length) :
    (getVecVarM (α := R) x.length vi).cols = x.length ∧
    (getVecVarM (α := R) x.length vi).rows = (getVecVar x vi).length ∧
    ∀ (i : ℕ) (y : R), (getVecVar x vi)[i]? = some y → ((getVecVarM x.length vi).mul (Mat.ofList x)).at_ i 0 = y := by
  refine ⟨?_, ?_, ?_⟩
  · rw [getVecVarM, selMatrix_cols]; omega
  · rw [getVecVar, length_pySlice _ h2]; rfl
  · intro i y hy
    rw [getVecVar, getElem?_pySlice] at hy
    split at hy
    · rename_i hi
      rw [getVecVarM, selMatrix_mul _ hi]
      simp only [Mat.ofList]
      rw [List.getD_eq_getElem?_getD, hy, Option.getD_some]
    · cases hy

theorem pySlice_append {α : Type} (l : List α) {a b c : ℕ} (h1 : a ≤ b) (h2 : b ≤ c) : pySlice l a b ++ pySlice l b c = pySlice l a c := by
  apply List.ext_getElem?
  intro k
  rw [List.getElem?_append]
  have hlen : (pySlice l a b).length = min (b - a) (l.length - a) := by simp [pySlice]
  rw [hlen]
  split
  · rw [getElem?_pySlice, getElem?_pySlice, if_pos (by omega), if_pos (by omega)]
  · rw [getElem?_pySlice, getElem?_pySlice]
    rcases Nat.lt_or_ge k (b - a) with h | h
    · have hk : l.length ≤ a + k := by omega
      rw [List.getElem?_eq_none hk]
      split
      · rw [List.getElem?_eq_none (by omega)]; simp
      · simp
    · rcases Nat.lt_or_ge l.length b with h3 | h3
      · rw [List.getElem?_eq_none (show l.length ≤ a + k by omega)]
        split
        · rw [List.getElem?_eq_none (by omega)]; simp
        · simp
      · rw [show min (b - a) (l.length - a) = b - a by omega, show b + (k - (b - a)) = a + k by omega]
        by_cases h4 : k < c - a
        · rw [if_pos h4, if_pos (by omega)]
        · rw [if_neg h4, if_neg (by omega)]

/-- **C24**, partition: the blocks `v`, `lamb`, `nu`, `P` of sizes `nv`, `nI`, `nE`, `nP` one after the other are `x`, and `lamb_nu` is `lamb`
followed by `nu`. -/
theorem C24_partition {α : Type} (x : List α) {nv nI nE nP : ℕ} (hx : x.length = nv + nI + nE + nP) :
    getVecVar x ⟨0, nv⟩ ++ getVecVar x ⟨nv, nv + nI⟩ ++ getVecVar x ⟨nv + nI, nv + nI + nE⟩ ++ getVecVar x ⟨nv + nI + nE, nv + nI + nE + nP⟩ = x ∧
    getVecVar x ⟨nv, nv + nI + nE⟩ = getVecVar x ⟨nv, nv + nI⟩ ++ getVecVar x ⟨nv + nI, nv + nI + nE⟩ := by
  constructor
  · simp only [getVecVar]
    rw [pySlice_append _ (by omega) (by omega), pySlice_append _ (by omega) (by omega), pySlice_append _ (by omega) (by omega), ← hx]
    simp [pySlice]
  · simp only [getVecVar]
    rw [pySlice_append _ (by omega) (by omega)]

/-- **C25.** Multipliers of `n ≥ 1` samples: `reshape_lamb_2d` gives an `n × n` array with zero diagonal, and flattening it gives the
multipliers back. -/
theorem C25_flatten_reshape {n : ℕ} (hn : 1 ≤ n) (l : List R) (hl : l.length = n * (n - 1)) :
    ∃ m, reshapeLamb2d l = .ok m ∧ m.rows = n ∧ m.cols = n ∧ (∀ i, m.at_ i i = 0) ∧ flattenLamb m = l := by
  have hs : Nat.sqrt l.length + 1 = n := by rw [hl, sqrt_pairs hn]; omega
  have hlen : (offDiagPairs n).length = l.length := by rw [offDiagPairs_eq, length_offDiag, hl]
  obtain ⟨res, h1, h2, h3⟩ := reshapeLoop_spec l (offDiagPairs n) (fun _ _ => (0 : R)) 0 (nodup_offDiag n) (by omega)
  refine ⟨⟨n, n, res⟩, ?_, rfl, rfl, ?_, ?_⟩
  · rw [reshapeLamb2d]; simp only [hs]; rw [h1]; rfl
  · intro i
    show res i i = 0
    rw [h3 i i]
    rw [offDiagPairs_eq, mem_offDiag]; tauto
  · apply List.ext_getElem?
    intro k
    rw [flattenLamb, List.getElem?_map]
    cases hk : (offDiagPairs n)[k]? with
    | none =>
      rw [List.getElem?_eq_none_iff] at hk
      rw [List.getElem?_eq_none (by omega)]; rfl
    | some p =>
      have := h2 k p hk
      rw [Nat.zero_add] at this
      rw [this]; rfl

/-- **C25**, the other way: reshaping the flattened `n × n` array, `n ≥ 1`, gives the array with its diagonal replaced by zeros. -/
theorem C25_reshape_flatten (m : Mat R) (hn : 1 ≤ m.rows) :
    ∃ m', reshapeLamb2d (flattenLamb m) = .ok m' ∧ m'.rows = m.rows ∧ m'.cols = m.rows ∧
      ∀ i < m.rows, ∀ j < m.rows, m'.at_ i j = if i = j then 0 else m.at_ i j := by
  have hl : (flattenLamb m).length = m.rows * (m.rows - 1) := by rw [flattenLamb, List.length_map, offDiagPairs_eq, length_offDiag]
  obtain ⟨m', h1, h2, h3, h4, h5⟩ := C25_flatten_reshape hn (flattenLamb m) hl
  refine ⟨m', h1, h2, h3, ?_⟩
  intro i hi j hj
  split
  · rename_i hij; subst hij; exact h4 i
  · rename_i hij
    have hm : (i, j) ∈ offDiagPairs m.rows := mem_offDiag.2 ⟨hi, hj, hij⟩
    rw [flattenLamb, flattenLamb, h2] at h5
    exact (List.map_inj_left.1 h5) (i, j) hm

/-- without the bound `n ≥ 1` the claim fails: the empty list is reshaped to a `1 × 1` array -/
theorem C25_empty : ∃ m : Mat ℚ, reshapeLamb2d [] = .ok m ∧ m.rows = 1 := ⟨_, rfl, rfl⟩

/-- a list whose length is not `n (n - 1)`: either too short, or entries are ignored -/
theorem C25_bad_length : reshapeLamb2d [(1:ℚ)] = .error .index ∧ ((reshapeLamb2d [(1:ℚ), 2, 3]).toOption.map flattenLamb) = some [1, 2] := by
  refine ⟨rfl, ?_⟩
  decide +kernel

/-! ### Non-vacuity -/

example : getPPtElement (flattenLowerTri (⟨3, 3, fun i j => (i + 2 * j + 1 : ℚ)⟩ : Mat ℚ)) 2 1 = 2 * 3 + 4 * 5 := by decide +kernel
example : flattenLamb (⟨3, 3, fun i j => 3 * i + j⟩ : Mat ℕ) = [1, 2, 3, 5, 6, 7] := by decide +kernel
example : getVecVar [10, 11, 12, 13, 14] ⟨1, 3⟩ = [11, 12] := by decide +kernel

end Verif
