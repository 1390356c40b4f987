import Verif.Model.Compare
import Verif.Spec.Poly
import Mathlib.Algebra.MvPolynomial.Funext
import Mathlib.Data.Real.Basic
import Mathlib.Algebra.Algebra.Rat
import Mathlib.Algebra.CharZero.Infinite
import Mathlib.Tactic.Linarith

/-!
# The terms that the computer algebra system returns are the terms of the polynomial
-/

namespace Verif
open MvPolynomial

theorem Sym.aeval_toMv (env : Name → ℝ) : ∀ e : Sym, aeval env e.toMv = e.eval env
  | .num c => by simp [toMv]
  | .var n => by simp [toMv]
  | .add a b => by simp [toMv, aeval_toMv env a, aeval_toMv env b]
  | .mul a b => by simp [toMv, aeval_toMv env a, aeval_toMv env b]

theorem mv_ext {p q : MvPolynomial Name ℚ} (h : ∀ env : Name → ℝ, aeval env p = aeval env q) : p = q := by
  refine map_injective (algebraMap ℚ ℝ) (algebraMap ℚ ℝ).injective (MvPolynomial.funext fun env => ?_)
  rw [eval_map, eval_map]
  exact h env

theorem Sym.toMv_congr {a b : Sym} (h : ∀ env, a.eval env = b.eval env) : a.toMv = b.toMv :=
  mv_ext fun env => by rw [aeval_toMv, aeval_toMv, h]

/-- exponents of a term -/
noncomputable def PolyTerm.expo (t : PolyTerm) : Name →₀ ℕ := (t.1.map fun p => Finsupp.single p.1 p.2).sum

theorem aeval_term (env : Name → ℝ) (t : PolyTerm) : aeval env (monomial t.expo t.2 : MvPolynomial Name ℚ) = PolyTerm.eval env t := by
  have : ∀ l : List (Name × ℕ), (monomial (l.map fun p => Finsupp.single p.1 p.2).sum (1 : ℚ) : MvPolynomial Name ℚ) = (l.map fun p => X p.1 ^ p.2).prod := by
    intro l
    induction l with
    | nil => rfl
    | cons p l ih =>
      rw [List.map_cons, List.sum_cons, List.map_cons, List.prod_cons, ← ih, X_pow_eq_monomial, monomial_mul, one_mul]
  have h1 : (monomial t.expo t.2 : MvPolynomial Name ℚ) = C t.2 * (t.1.map fun p => X p.1 ^ p.2).prod := by
    rw [← this, C_mul_monomial, mul_one]
    rfl
  rw [h1, map_mul, aeval_C, map_list_prod, List.map_map]
  simp [PolyTerm.eval, Function.comp_def]

theorem poly_toMv {C : CAS} (hC : C.Lawful) (e : Sym) : ((C.poly e).map fun t => (monomial t.expo t.2 : MvPolynomial Name ℚ)).sum = e.toMv := by
  refine mv_ext fun env => ?_
  rw [map_list_sum, List.map_map, Sym.aeval_toMv, ← hC.poly_eval]
  congr 1
  exact List.map_congr_left fun t _ => aeval_term env t

theorem expo_apply (l : List (Name × ℕ)) (hl : (l.map Prod.fst).Nodup) (p : Name × ℕ) (hp : p ∈ l) :
    (l.map fun p => Finsupp.single p.1 p.2).sum p.1 = p.2 := by
  induction l with
  | nil => cases hp
  | cons q l ih =>
    rw [List.map_cons, List.nodup_cons] at hl
    rw [List.map_cons, List.sum_cons, Finsupp.add_apply]
    have hzero : ∀ (l : List (Name × ℕ)) (n : Name), n ∉ l.map Prod.fst → (l.map fun p => Finsupp.single p.1 p.2).sum n = 0 := by
      intro l n
      induction l with
      | nil => exact fun _ => rfl
      | cons r l ih' =>
        intro hn
        rw [List.map_cons, List.mem_cons, not_or] at hn
        rw [List.map_cons, List.sum_cons, Finsupp.add_apply, ih' hn.2, Finsupp.single_apply, if_neg (fun h => hn.1 h.symm)]
    rcases List.mem_cons.1 hp with rfl | hp
    · rw [hzero l p.1 hl.1]
      simp
    · have hne : q.1 ≠ p.1 := fun h => hl.1 (h ▸ List.mem_map_of_mem hp)
      rw [Finsupp.single_apply, if_neg hne, zero_add, ih hl.2 hp]

theorem expo_inj {t u : PolyTerm} {gens : List Name} (hg : gens.Nodup) (ht : t.1.map Prod.fst = gens) (hu : u.1.map Prod.fst = gens)
    (h : t.expo = u.expo) : t.1 = u.1 := by
  have key : ∀ (t : PolyTerm), t.1.map Prod.fst = gens → t.1 = gens.map fun n => (n, t.expo n) := by
    intro t ht
    rw [← ht, List.map_map]
    conv_lhs => rw [← List.map_id t.1]
    refine List.map_congr_left fun p hp => ?_
    have := expo_apply t.1 (ht ▸ hg) p hp
    exact Prod.ext rfl this.symm
  rw [key t ht, key u hu, h]

theorem poly_expo_nodup {C : CAS} (hC : C.Lawful) (e : Sym) : ((C.poly e).map PolyTerm.expo).Nodup := by
  obtain ⟨gens, hg, h1⟩ := hC.poly_gens e
  have h2 := hC.poly_nodup e
  rw [List.nodup_map_iff_inj_on (List.Nodup.of_map _ h2)]
  intro t ht u hu h
  exact List.inj_on_of_nodup_map h2 ht hu (expo_inj hg (h1 t ht) (h1 u hu) h)

theorem coeff_zero_of_not_mem : ∀ (l : List PolyTerm) (m : Name →₀ ℕ), m ∉ l.map PolyTerm.expo →
    coeff m ((l.map fun t => (monomial t.expo t.2 : MvPolynomial Name ℚ)).sum) = 0 := by
  intro l m
  induction l with
  | nil => exact fun _ => rfl
  | cons r l ih' =>
    intro hn
    rw [List.map_cons, List.mem_cons, not_or] at hn
    rw [List.map_cons, List.sum_cons, coeff_add, coeff_monomial, if_neg (fun h => hn.1 h.symm), ih' hn.2, zero_add]

theorem coeff_terms : ∀ (l : List PolyTerm), (l.map PolyTerm.expo).Nodup → ∀ t ∈ l,
    coeff t.expo ((l.map fun t => (monomial t.expo t.2 : MvPolynomial Name ℚ)).sum) = t.2 := by
  intro l
  induction l with
  | nil => exact fun _ t h => by cases h
  | cons u l ih =>
    intro hl t ht
    rw [List.map_cons, List.nodup_cons] at hl
    rw [List.map_cons, List.sum_cons, coeff_add, coeff_monomial]
    rcases List.mem_cons.1 ht with rfl | ht
    · rw [if_pos rfl, coeff_zero_of_not_mem l _ hl.1, add_zero]
    · have hne : u.expo ≠ t.expo := fun h => hl.1 (h ▸ List.mem_map_of_mem ht)
      rw [if_neg hne, ih hl.2 t ht, zero_add]

theorem coeff_of_mem {C : CAS} (hC : C.Lawful) {e : Sym} {t : PolyTerm} (ht : t ∈ C.poly e) : coeff t.expo e.toMv = t.2 := by
  rw [← poly_toMv hC]
  exact coeff_terms _ (poly_expo_nodup hC e) t ht

theorem coeff_cases {C : CAS} (hC : C.Lawful) (e : Sym) (m : Name →₀ ℕ) : coeff m e.toMv = 0 ∨ ∃ t ∈ C.poly e, t.expo = m ∧ coeff m e.toMv = t.2 := by
  by_cases h : m ∈ (C.poly e).map PolyTerm.expo
  · obtain ⟨t, ht, rfl⟩ := List.mem_map.1 h
    exact Or.inr ⟨t, ht, rfl, coeff_of_mem hC ht⟩
  · left
    rw [← poly_toMv hC]
    exact coeff_zero_of_not_mem _ _ h

end Verif
