import Verif.Spec.Problem
import Verif.Proofs.ProgramAll
import Mathlib.Algebra.BigOperators.Ring.Finset

namespace Verif
open Heap
open scoped InnerProductSpace

namespace FG
variable {env : Name → ℝ} {dimF dimG : ℕ} {Fv : ℕ → ℝ} {Gm : ℕ → ℕ → ℝ}

theorem addF_val (m : FG) {k : ℕ} (w : Sym) (hk : k < dimF) :
    (m.addF k w).val env dimF dimG Fv Gm = m.val env dimF dimG Fv Gm + w.eval env * Fv k := by
  have : ∀ i ∈ Finset.range dimF, ((m.addF k w).F i).eval env * Fv i =
      (m.F i).eval env * Fv i + if i = k then w.eval env * Fv i else 0 := by
    intro i _
    by_cases h : i = k
    · simp [addF, h]; ring
    · simp [addF, h]
  simp only [val]
  rw [Finset.sum_congr rfl this, Finset.sum_add_distrib, Finset.sum_ite_eq' (Finset.range dimF) k, if_pos (Finset.mem_range.2 hk)]
  simp only [addF]; ring

theorem addG_val (m : FG) {k l : ℕ} (w : Sym) (hk : k < dimG) (hl : l < dimG) :
    (m.addG k l w).val env dimF dimG Fv Gm = m.val env dimF dimG Fv Gm + w.eval env * Gm k l := by
  have : ∀ i ∈ Finset.range dimG, ∑ j ∈ Finset.range dimG, ((m.addG k l w).G i j).eval env * Gm i j =
      (∑ j ∈ Finset.range dimG, (m.G i j).eval env * Gm i j) + if i = k then w.eval env * Gm i l else 0 := by
    intro i _
    by_cases h : i = k
    · have : ∀ j ∈ Finset.range dimG, ((m.addG k l w).G i j).eval env * Gm i j =
          (m.G i j).eval env * Gm i j + if j = l then w.eval env * Gm i j else 0 := by
        intro j _
        by_cases h' : j = l
        · simp [addG, h, h']; ring
        · simp [addG, h']
      rw [Finset.sum_congr rfl this, Finset.sum_add_distrib, Finset.sum_ite_eq' (Finset.range dimG) l, if_pos (Finset.mem_range.2 hl),
        if_pos h]
    · simp [addG, h]
  simp only [val]
  rw [Finset.sum_congr rfl this, Finset.sum_add_distrib, Finset.sum_ite_eq' (Finset.range dimG) k, if_pos (Finset.mem_range.2 hk)]
  simp only [addG]; ring

theorem addScaled_val (a m : FG) (s : Sym) :
    (a.addScaled s m).val env dimF dimG Fv Gm = a.val env dimF dimG Fv Gm + s.eval env * m.val env dimF dimG Fv Gm := by
  simp only [val, addScaled, Sym.eval_add, Sym.eval_mul, add_mul, Finset.sum_add_distrib, mul_add, Finset.mul_sum, mul_assoc]
  ring

theorem sub_val (a m : FG) :
    (a.sub m).val env dimF dimG Fv Gm = a.val env dimF dimG Fv Gm - m.val env dimF dimG Fv Gm := by
  simp only [val, sub, Sym.eval_sub, sub_mul, Finset.sum_sub_distrib]
  ring

theorem zero_val : FG.zero.val env dimF dimG Fv Gm = 0 := by
  simp [val, zero]

theorem addF_occurs {m : FG} {k : ℕ} {w : Sym} {n : Name} (h : (m.addF k w).Occurs n) : m.Occurs n ∨ n ∈ w.vars := by
  rcases h with ⟨i, hi⟩ | ⟨i, j, hi⟩
  · by_cases hk : i = k
    · simp only [addF, hk, if_true] at hi
      rcases List.mem_append.1 hi with hi | hi
      · exact Or.inl (Or.inl ⟨k, hi⟩)
      · exact Or.inr hi
    · simp only [addF, hk, if_false] at hi
      exact Or.inl (Or.inl ⟨i, hi⟩)
  · exact Or.inl (Or.inr ⟨i, j, hi⟩)

theorem addG_occurs {m : FG} {k l : ℕ} {w : Sym} {n : Name} (h : (m.addG k l w).Occurs n) : m.Occurs n ∨ n ∈ w.vars := by
  rcases h with ⟨i, hi⟩ | ⟨i, j, hi⟩
  · exact Or.inl (Or.inl ⟨i, hi⟩)
  · by_cases hk : i = k ∧ j = l
    · simp only [addG, hk, and_self, if_true] at hi
      rcases List.mem_append.1 hi with hi | hi
      · exact Or.inl (Or.inr ⟨k, l, hi⟩)
      · exact Or.inr hi
    · simp only [addG, hk, if_false] at hi
      exact Or.inl (Or.inr ⟨i, j, hi⟩)

theorem zero_occurs {n : Name} : ¬ FG.zero.Occurs n := by
  rintro (⟨i, hi⟩ | ⟨i, j, hi⟩) <;> simp [zero, Sym.vars] at hi

theorem zero_symmetric : FG.zero.Symmetric := fun _ _ _ => rfl

end FG

variable {C : CAS} {h : Heap} (hC : C.Lawful)
include hC

theorem matWeight_eval (env : Name → ℝ) (w : Sym) : (matWeight C w).eval env = w.eval env := by
  unfold matWeight
  split
  · next hv => rw [Sym.eval_num, ← Sym.eval_of_isNumber env _ hv, hC.simp_eval]
  · rfl

omit hC in
theorem matWeight_vars {w : Sym} {n : Name} (hn : n ∈ (matWeight C w).vars) : n ∈ w.vars := by
  unfold matWeight at hn
  split at hn
  · simp [Sym.vars] at hn
  · exact hn

/-- value of a key when constants are dropped -/
noncomputable def keyVal0 {E : Type} [NormedAddCommGroup E] [InnerProductSpace ℝ E] (φ : PtId → E) (ψ : ExId → ℝ) : ExKey → ℝ
  | .one => 0
  | k => keyVal φ ψ k

/-- what the matrices `m` of a decomposition `d` satisfy, when the loop starts with `m0` -/
structure MatRes (h : Heap) (d : Dict ExKey Sym) (m0 m : FG) : Prop where
  val : ∀ {E : Type} [NormedAddCommGroup E] [InnerProductSpace ℝ E] (env : Name → ℝ) (φ : PtId → E) (ψ : ExId → ℝ),
    m.val env h.exCounter h.ptCounter (h.fvec ψ) (h.gram φ) =
      m0.val env h.exCounter h.ptCounter (h.fvec ψ) (h.gram φ) + d.den (Sym.eval env) (keyVal0 φ ψ)
  symm : m0.Symmetric → m.Symmetric
  vars : ∀ n, m.Occurs n → m0.Occurs n ∨ ∃ kw ∈ d, n ∈ kw.2.vars

theorem matStep_spec (w : WF C h) (m0 : FG) (kw : ExKey × Sym) (hk : h.KeyLive kw.1) :
    ∃ m, matStep C h.ptCounter h.exCounter m0 kw h = .ok (m, h) ∧ MatRes h [kw] m0 m := by
  obtain ⟨k, wt⟩ := kw
  cases k with
  | fn e =>
    obtain ⟨i, hi⟩ := List.getElem?_of_mem (show e ∈ h.leafExs from hk)
    have hlt : i < h.exCounter := by rw [w.exCounter]; exact (List.getElem?_eq_some_iff.1 hi).1
    have ho := w.leafEx i e hi
    refine ⟨m0.addF i (matWeight C wt), ?_, ?_, ?_, ?_⟩
    · simp only [matStep]
      rw [M.bind_of_ok (show getEx e h = .ok (ExObj.mk true (some i) [(ExKey.fn e, Sym.num 1)], h) by simp [getEx, ho])]
      rw [M.bind_of_ok (a := ()) (h1 := h) (by rfl), M.bind_of_ok (a := i) (h1 := h) (by rfl), if_pos hlt]
      rfl
    · intro E _ _ env φ ψ
      rw [FG.addF_val _ _ hlt, matWeight_eval hC]
      have : h.fvec ψ i = ψ e := by
        rw [fvec, List.getD_eq_getElem?_getD, hi]; rfl
      simp [Dict.den, keyVal0, keyVal, this]
    · intro hs env i' j'; exact hs env i' j'
    · intro n hn
      rcases FG.addF_occurs hn with hn | hn
      · exact Or.inl hn
      · exact Or.inr ⟨_, List.mem_singleton.2 rfl, matWeight_vars hn⟩
  | inner p q =>
    obtain ⟨i, hi⟩ := List.getElem?_of_mem (show p ∈ h.leafPts from hk.1)
    obtain ⟨j, hj⟩ := List.getElem?_of_mem (show q ∈ h.leafPts from hk.2)
    have hli : i < h.ptCounter := by rw [w.ptCounter]; exact (List.getElem?_eq_some_iff.1 hi).1
    have hlj : j < h.ptCounter := by rw [w.ptCounter]; exact (List.getElem?_eq_some_iff.1 hj).1
    have hp := w.leafPt i p hi
    have hq := w.leafPt j q hj
    refine ⟨(m0.addG i j ((matWeight C wt).divNum 2)).addG j i ((matWeight C wt).divNum 2), ?_, ?_, ?_, ?_⟩
    · simp only [matStep]
      rw [M.bind_of_ok (show getPt p h = .ok (PtObj.mk true (some i) [(p, Sym.num 1)], h) by simp [getPt, hp]),
        M.bind_of_ok (show getPt q h = .ok (PtObj.mk true (some j) [(q, Sym.num 1)], h) by simp [getPt, hq])]
      rw [M.bind_of_ok (a := ()) (h1 := h) (by rfl), M.bind_of_ok (a := i) (h1 := h) (by rfl), M.bind_of_ok (a := j) (h1 := h) (by rfl),
        if_pos ⟨hli, hlj⟩]
      rfl
    · intro E _ _ env φ ψ
      rw [FG.addG_val _ _ hlj hli, FG.addG_val _ _ hli hlj, Sym.eval_divNum, matWeight_eval hC]
      have h1 : h.gram φ i j = ⟪φ p, φ q⟫_ℝ := by
        rw [gram, List.getD_eq_getElem?_getD, List.getD_eq_getElem?_getD, hi, hj]; rfl
      have h2 : h.gram φ j i = ⟪φ p, φ q⟫_ℝ := by
        rw [gram, List.getD_eq_getElem?_getD, List.getD_eq_getElem?_getD, hi, hj, real_inner_comm]; rfl
      rw [h1, h2]
      simp [Dict.den, keyVal0, keyVal]; ring
    · intro hs env i' j'
      simp only [FG.addG]
      have := hs env i' j'
      by_cases h1 : i' = i ∧ j' = j
      · obtain ⟨rfl, rfl⟩ := h1
        by_cases h2 : i' = j'
        · subst h2; rfl
        · simp [h2, Ne.symm h2, this]
      · by_cases h2 : i' = j ∧ j' = i
        · obtain ⟨rfl, rfl⟩ := h2
          by_cases h3 : i' = j'
          · subst h3; rfl
          · simp [h3, Ne.symm h3, this]
        · have h3 : ¬ (j' = j ∧ i' = i) := fun hh => h1 ⟨hh.2, hh.1⟩
          have h4 : ¬ (j' = i ∧ i' = j) := fun hh => h2 ⟨hh.2, hh.1⟩
          simp [h1, h2, h3, h4, this]
    · intro n hn
      have hv : ∀ x, x ∈ ((matWeight C wt).divNum 2).vars → x ∈ wt.vars := by
        intro x hx
        rcases List.mem_append.1 hx with hx | hx
        · exact matWeight_vars hx
        · simp [Sym.vars] at hx
      rcases FG.addG_occurs hn with hn | hn
      · rcases FG.addG_occurs hn with hn | hn
        · exact Or.inl hn
        · exact Or.inr ⟨_, List.mem_singleton.2 rfl, hv _ hn⟩
      · exact Or.inr ⟨_, List.mem_singleton.2 rfl, hv _ hn⟩
  | one =>
    refine ⟨m0, rfl, ?_, fun h => h, fun n hn => Or.inl hn⟩
    intro E _ _ env φ ψ
    simp [Dict.den, keyVal0]

theorem matLoop_spec (w : WF C h) (d : Dict ExKey Sym) : ∀ m0 : FG, (∀ k ∈ d.keys, h.KeyLive k) →
    ∃ m, matLoop C h.ptCounter h.exCounter d m0 h = .ok (m, h) ∧ MatRes h d m0 m := by
  induction d with
  | nil =>
    intro m0 _
    refine ⟨m0, rfl, ?_, fun h => h, fun n hn => Or.inl hn⟩
    intro E _ _ env φ ψ; simp
  | cons kw d ih =>
    intro m0 hk
    obtain ⟨m1, e1, r1⟩ := matStep_spec hC w m0 kw (hk _ (by simp))
    obtain ⟨m2, e2, r2⟩ := ih m1 (fun k hk' => hk k (by simp [hk']))
    refine ⟨m2, by rw [matLoop, M.bind_of_ok e1, e2], ?_, fun hs => r2.symm (r1.symm hs), ?_⟩
    · intro E _ _ env φ ψ
      rw [r2.val, r1.val]
      simp [add_assoc]
    · intro n hn
      rcases r2.vars n hn with hn | ⟨kw', h1, h2⟩
      · rcases r1.vars n hn with hn | ⟨kw', h1, h2⟩
        · exact Or.inl hn
        · exact Or.inr ⟨kw', by simp at h1; simp [h1], h2⟩
      · exact Or.inr ⟨kw', by simp [h1], h2⟩

omit hC in
theorem den_key0 {E : Type} [NormedAddCommGroup E] [InnerProductSpace ℝ E] (env : Name → ℝ) (φ : PtId → E) (ψ : ExId → ℝ)
    {d : Dict ExKey Sym} (hd : d.NodupKeys) :
    d.den (Sym.eval env) (keyVal φ ψ) =
      d.den (Sym.eval env) (keyVal0 φ ψ) + ((d.get? .one).getD (Sym.num 0)).eval env := by
  induction d with
  | nil => simp
  | cons kw d ih =>
    rw [Dict.NodupKeys, Dict.keys_cons, List.nodup_cons] at hd
    have := ih hd.2
    by_cases hk : kw.1 = .one
    · have hn : Dict.get? d .one = none := by rw [Dict.get?_eq_none_iff, ← hk]; exact hd.1
      rw [hn] at this
      simp only [Dict.den_cons, Dict.get?_cons, hk, if_true, this, keyVal, keyVal0]
      simp; ring
    · have h0 : keyVal0 φ ψ kw.1 = keyVal φ ψ kw.1 := by
        cases hh : kw.1 <;> simp_all [keyVal0]
      simp only [Dict.den_cons, Dict.get?_cons, hk, if_false, this, h0]
      ring

theorem exprToMatrix_spec (w : WF C h) {e : ExId} (he : h.ExLive e) :
    ∃ m, exprToMatrix C e h.ptCounter h.exCounter h = .ok (m, h) ∧ MatOf h e m := by
  obtain ⟨o, ho, hn, hk⟩ := he
  obtain ⟨m, em, r⟩ := matLoop_spec hC w o.dict FG.zero hk
  refine ⟨m, ?_, ?_, r.symm FG.zero_symmetric, ?_⟩
  · rw [exprToMatrix, M.bind_of_ok (show getEx e h = .ok (o, h) by simp [getEx, ho]), em]
  · intro E _ _ env φ ψ
    rw [r.val, FG.zero_val, exConst, exVal, ho]
    simp only [zero_add]
    exact (den_key0 env φ ψ hn).symm
  · intro n hn
    rcases r.vars n hn with hn | hn
    · exact absurd hn FG.zero_occurs
    · exact ⟨o, ho, hn⟩

end Verif
