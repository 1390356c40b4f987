import Verif.Proofs.CoeffClosed
import Verif.Proofs.RefCAS
import Verif.Props.Oracle

/-!
# C18-C20: coefficient matrices, the table of monomials, linearization
-/

namespace Verif

variable {C : CAS} {sp : Dict SpKey FG} {params : List Name} {dimG dimF : ℕ} {tab : VTab} {cs : List (Coeff × Coeff)}

/-- **C18.** Whenever the decomposition of symbolic matrices succeeds, there is one pair of coefficient matrices per key, in order, and for
every value of the symbols each entry of `F` and `G` is the corresponding coefficient row times the vector of the values of the
monomials in the final table (the value of a long name is the product of the values of its parts), whatever the order in which the
computer algebra system lists the terms. -/
theorem C18_rows (hC : C.Lawful) (hp : params.Nodup) (h : spCoeffMatrix C sp params dimG dimF = .ok (tab, cs)) :
    cs.length = sp.length ∧
    ∀ (k : ℕ) (key : SpKey) (m : FG) (cF cG : Coeff), sp[k]? = some (key, m) → cs[k]? = some (cF, cG) →
      (cF.cols ≤ tab.names.length ∧ cG.cols ≤ tab.names.length) ∧
      ∀ env : Name → ℝ, (∀ i < dimF, cF.rowVal tab.names env i = (m.F i).eval env) ∧
        (∀ i < dimG, ∀ j < dimG, cG.rowVal tab.names env (i * dimG + j) = (m.G i j).eval env) := by
  obtain ⟨-, -, hf⟩ := coeffLoop_spec (params := params) hC _ (VTab.init_ok hp) List.prefix_rfl h
  have hl := hf.length_eq
  rw [List.length_map] at hl
  refine ⟨hl.symm, ?_⟩
  intro k key m cF cG hk hc
  obtain ⟨h1, e1⟩ := List.getElem?_eq_some_iff.1 hk
  obtain ⟨h2, e2⟩ := List.getElem?_eq_some_iff.1 hc
  have := (List.forall₂_iff_get.1 hf).2 k (by simpa using h1) h2
  simp only [List.get_eq_getElem, List.getElem_map, e1, e2] at this
  obtain ⟨rF, rG⟩ := this
  refine ⟨⟨rF.cols, rG.cols⟩, fun env => ⟨fun i hi => rF.eval hC ?_ env, fun i hi j hj => rG.eval hC ?_ env⟩⟩
  · simp [FG.flatF, hi]
  · have hlt : i * dimG + j < dimG * dimG := by
      calc i * dimG + j < i * dimG + dimG := by omega
        _ = (i + 1) * dimG := by ring
        _ ≤ dimG * dimG := Nat.mul_le_mul_right _ (by omega)
    have hpos : 0 < dimG := by omega
    simp [FG.flatG, hlt, Nat.mul_add_mod', Nat.mod_eq_of_lt hj]
    rw [Nat.add_comm, Nat.add_mul_div_right _ _ hpos, Nat.div_eq_of_lt hj, Nat.zero_add]

/-- **C18**, success: the decomposition raises no error if every symbol of the matrices is a parameter and no parameter name contains
an underscore. -/
theorem C18_ok (hC : C.Lawful) (hp : params.Nodup) (hpl : ∀ n ∈ params, Plain n) (hv : ∀ km ∈ sp, ∀ n, km.2.Occurs n → n ∈ params) :
    ∃ r, spCoeffMatrix C sp params dimG dimF = .ok r :=
  coeffLoop_ok hC hpl _ (VTab.init_ok hp) List.prefix_rfl fun m hm n hn => by
    obtain ⟨km, hk, rfl⟩ := List.mem_map.1 hm
    exact hv km hk n hn

/-- **C19.** The table of monomial names has no duplicates, starts with 1 and the parameters, its dictionary of positions is exact, and
each further name is a sorted product of parameters whose one-shorter prefix is in the table too. -/
theorem C19_table (hC : C.Lawful) (hp : params.Nodup) (hpl : ∀ n ∈ params, Plain n) (hv : ∀ km ∈ sp, ∀ n, km.2.Occurs n → n ∈ params)
    (h : spCoeffMatrix C sp params dimG dimF = .ok (tab, cs)) :
    tab.names.Nodup ∧ (VName.one :: params.map VName.str) <+: tab.names ∧
    (∀ n i, tab.idx.get? n = some i ↔ tab.names[i]? = some n) ∧ TableClosed params tab.names := by
  obtain ⟨o, pre, -⟩ := coeffLoop_spec (params := params) hC _ (VTab.init_ok hp) List.prefix_rfl h
  refine ⟨o.nodup, pre, fun n i => o.get, ?_⟩
  refine coeffLoop_closed hC hpl _ (VTab.init_ok hp) List.prefix_rfl (fun m hm n hn => ?_) TableClosed.init h
  obtain ⟨km, hk, rfl⟩ := List.mem_map.1 hm
  exact hv km hk n hn

/-- **C19**, lookups: for every name of the table other than 1 and the parameters (a product), the two lookups made to build the
quadratic constraint `name = prefix * last` succeed. -/
theorem C19_lookup (hC : C.Lawful) (hp : params.Nodup) (hpl : ∀ n ∈ params, Plain n) (hv : ∀ km ∈ sp, ∀ n, km.2.Occurs n → n ∈ params)
    (h : spCoeffMatrix C sp params dimG dimF = .ok (tab, cs)) {s : Name} (hs : VName.str s ∈ tab.names) (hlen : (splitU s).length ≠ 1) :
    ∃ i j v, (splitU s).getLast? = some v ∧ tab.idx.get? (.str (joinU (splitU s).dropLast)) = some i ∧ tab.idx.get? (.str v) = some j := by
  obtain ⟨-, pre, hidx, hc⟩ := C19_table hC hp hpl hv h
  rcases hc s hs with hs | ⟨l, a, hl, e, hm, -, hin⟩
  · exact absurd (by rw [splitU_plain (hpl s hs)]; rfl) hlen
  · rw [e, List.dropLast_concat]
    obtain ⟨i, hi⟩ := List.getElem?_of_mem hin
    obtain ⟨j, hj⟩ := List.getElem?_of_mem (pre.subset (show VName.str a ∈ VName.one :: params.map VName.str by simp [hm a (by simp)]))
    exact ⟨i, j, a, by simp, (hidx _ _).2 hi, (hidx _ _).2 hj⟩

/-- **C20.** Evaluating the linearized expression with every long symbol set to the product of its parts gives the expression. -/
theorem C20_linearize (hC : C.Lawful) {e : Sym} (h : ∀ n ∈ e.vars, Plain n) (env : Name → ℝ) :
    (linearize C e).eval (longEnv env) = e.eval env := by
  rw [linearize_eval hC, eval_longEnv_plain h]

/-- **C20**, linearity: the linearized expression is an affine function of its (long) symbols. -/
theorem C20_affine (hC : C.Lawful) (e : Sym) : ∃ (c0 : ℚ) (l : List (Name × ℚ)), ∀ env : Name → ℝ,
    (linearize C e).eval env = c0 + (l.map fun p => (p.2 : ℝ) * env p.1).sum := linearize_affine hC e

/-- **C20**, round trip. -/
theorem C20_roundtrip (hC : C.Lawful) {e : Sym} (h : ∀ n ∈ e.vars, Plain n) (env : Name → ℝ) :
    (collapse C (linearize C e)).eval env = e.eval env := by
  rw [collapse_eval hC, C20_linearize hC h]

/-- **C20**, underscores: a parameter called `a_b` is read as the product of `a` and `b`. -/
theorem C20_underscore (hC : C.Lawful) (env : Name → ℝ) : (collapse C (Sym.var "a_b")).eval env = env "a" * env "b" := by
  rw [collapse_eval hC]
  show longEnv env "a_b" = _
  rw [longEnv, show splitU "a_b" = ["a", "b"] by decide +kernel]
  simp

/-! ### Non-vacuity -/

/-- entries `h² + 3 h` and `b h` and `7` -/
def exFG : FG := ⟨fun i => if i = 0 then Sym.var "h" * Sym.var "h" + Sym.num 3 * Sym.var "h" else Sym.num 7,
  fun _ _ => Sym.var "h" * Sym.var "b"⟩

theorem exFG_occurs : ∀ n, exFG.Occurs n → n ∈ ["b", "h"] := by
  rintro n (⟨k, hk⟩ | ⟨i, j, hk⟩)
  · simp only [exFG] at hk
    split at hk
    · have : n ∈ [("h" : Name), "h", "h"] := hk
      simp at this; simp [this]
    · simp [Sym.vars] at hk
  · have : n ∈ [("h" : Name), "b"] := hk
    simp at this ⊢; tauto

example : ∃ r, spCoeffMatrix refCAS [(.obj, exFG)] ["b", "h"] 1 2 = .ok r ∧
    r.1.names = [.one, .str "b", .str "h", .str "h_h", .str "b_h"] ∧ (r.2.map fun c => (c.1.cols, c.2.cols)) = [(4, 5)] ∧
    (r.2.map fun c => (c.1.at_ 0 3, c.1.at_ 0 2, c.1.at_ 1 0, c.2.at_ 0 4)) = [(1, 3, 7, 1)] :=
  ok_of_check (by decide +kernel)

example : ∃ r, spCoeffMatrix refCAS [(.obj, exFG)] ["b", "h"] 1 2 = .ok r :=
  C18_ok refCAS_lawful (by decide) (by decide +kernel) (by intro km hk; rw [List.mem_singleton] at hk; subst hk; exact exFG_occurs)

example : linearize refCAS (Sym.var "h" * Sym.var "h" * Sym.var "b") = Sym.mul (Sym.num 1) (Sym.var "b_h_h") := by decide +kernel

end Verif
