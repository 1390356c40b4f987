import Verif.Proofs.QcqpPack
import Verif.Proofs.Casadi

/-!
# Conversion of an expression to entries of the vector of monomials
-/

namespace Verif

variable {C : CAS} {tab : VTab} {σ : ℕ → ℕ → ℕ → ℝ} {env : Name → ℝ}

theorem tabMonomial_spec (o : tab.Ok) {parts : List Name} (hp : ∀ n ∈ parts, Plain n) {x : CExp} (h : tab.monomial parts = .ok x)
    (hm : Monos tab.names (fun i => σ 0 i 0) env) : x.eval σ = (parts.map env).prod := by
  rw [VTab.monomial] at h
  split at h
  · rename_i he
    injection h with h
    subst h
    rw [he]; simp [CExp.eval]
  · rename_i he
    obtain ⟨i, hi, h⟩ := Except.bind_ok_iff.1 h
    injection h with h
    subst h
    show σ 0 i 0 = _
    refine (hm _ _ (o.lookup.1 hi)).trans ?_
    show longEnv env _ = _
    rw [longEnv_join _ (fun hh => he (sortNames_eq_nil.1 hh)), prod_sortNames]
    congr 1
    exact List.map_congr_left fun n hn => longEnv_plain (hp n hn)

theorem tabTerms_spec (o : tab.Ok) (hm : Monos tab.names (fun i => σ 0 i 0) env) : ∀ (ts : List PolyTerm) {acc x : CExp},
    tab.terms ts acc = .ok x → x.eval σ = acc.eval σ + (ts.map (PolyTerm.eval (longEnv env))).sum
  | [], acc, x, h => by
    injection h with h
    subst h; simp
  | t :: ts, acc, x, h => by
    rw [VTab.terms] at h
    obtain ⟨y, hy, h⟩ := Except.bind_ok_iff.1 h
    rw [tabTerms_spec o hm ts h, List.map_cons, List.sum_cons, prod_monoParts, ← tabMonomial_spec o (monoParts_plain t) hy hm]
    show acc.eval σ + (t.2 : ℝ) * y.eval σ + _ = _
    rw [add_assoc]

/-- where the vector starts with the values of the monomials, the converted expression has the value of the expression -/
theorem tabExpr_spec (hC : C.Lawful) (o : tab.Ok) {e : Sym} {x : CExp} (h : tab.expr C e = .ok x)
    (hm : Monos tab.names (fun i => σ 0 i 0) env) : x.eval σ = e.eval (longEnv env) := by
  rw [VTab.expr] at h
  split at h
  · rename_i hc
    injection h with h
    subst h
    rw [isConst_eval hC hc]; rfl
  · rw [tabTerms_spec o hm _ h, hC.poly_eval, hC.simp_eval]
    simp [CExp.eval]

theorem tabTerms_ok : ∀ (ts : List PolyTerm) {acc : CExp}, (∀ t ∈ ts, ∃ x, tab.monomial (monoParts t) = .ok x) → ∃ x, tab.terms ts acc = .ok x
  | [], acc, _ => ⟨_, rfl⟩
  | t :: ts, acc, h => by
    obtain ⟨x, hx⟩ := h t (by simp)
    obtain ⟨y, hy⟩ := tabTerms_ok ts (acc := .add acc (.mul (.num t.2) x)) fun u hu => h u (by simp [hu])
    exact ⟨y, by rw [VTab.terms, Except.bind_ok_iff]; exact ⟨_, hx, hy⟩⟩

theorem tabTerms_mem : ∀ {ts : List PolyTerm} {acc x : CExp}, tab.terms ts acc = .ok x → ∀ t ∈ ts, ∃ y, tab.monomial (monoParts t) = .ok y
  | [], _, _, _ => by simp
  | t :: ts, acc, x, h => by
    rw [VTab.terms] at h
    obtain ⟨y, hy, h⟩ := Except.bind_ok_iff.1 h
    intro u hu
    rcases List.mem_cons.1 hu with rfl | hu
    · exact ⟨y, hy⟩
    · exact tabTerms_mem h u hu

end Verif
