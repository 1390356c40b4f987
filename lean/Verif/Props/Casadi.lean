import Verif.Proofs.Casadi
import Verif.Proofs.Names
import Verif.Proofs.RefCAS
import Verif.Props.Oracle

/-!
# C21, C22: names of multipliers and lifted product variables
-/

namespace Verif

variable {C : CAS}

theorem parseNat_digits (k : ℕ) : parseNat (digits k) = .ok k := by
  rw [parseNat, if_pos]
  · rw [digits, Nat.repr_eq_ofList_toDigits, String.toList_ofList, Nat.ofDigitChars_ten_toDigits]
  · refine ⟨?_, List.all_eq_true.2 fun c hc => digits_isDigit hc⟩
    rw [digits, Nat.repr_eq_ofList_toDigits, String.toList_ofList]
    exact Nat.toDigits_ne_nil

theorem split_idx {p : List Char} (hp : '|' ∉ p) (i j : ℕ) : (p ++ idxChars i j).splitOn '|' = [p, digits i ++ '.' :: digits j, []] := by
  have hij : '|' ∉ digits i ++ '.' :: digits j := by
    simp [bar_notMem]
  have e : p ++ idxChars i j = p ++ '|' :: ((digits i ++ '.' :: digits j) ++ '|' :: []) := by simp [idxChars]
  rw [e, List.splitOn_append_cons_self, List.splitOn_append_cons_self, List.splitOn_eq_singleton hp, List.splitOn_eq_singleton hij]
  rfl

theorem decode_idx {n : Name} {p : List Char} {i j : ℕ} (hp : '|' ∉ p) (hn : n.toList = p ++ idxChars i j) :
    decodeDual n = .ok (String.ofList p, i, j) := by
  rw [decodeDual, hn, split_idx hp]
  simp only
  rw [List.splitOn_append_cons_self, List.splitOn_eq_singleton (dot_notMem i), List.splitOn_eq_singleton (dot_notMem j)]
  simp only [List.singleton_append, List.cons_append, List.nil_append]
  rw [parseNat_digits, parseNat_digits]; rfl

/-- **C21**, inequality multipliers: the name made for `(k, i, j)` is recognised as an inequality multiplier and decodes to the
variable `lamb{k}` and the indices `i, j`. -/
theorem C21_lamb (k i j : ℕ) : isLamb (lambName k i j) = true ∧ decodeDual (lambName k i j) = .ok ("lamb" ++ toString k, i, j) := by
  refine ⟨?_, ?_⟩
  · rw [isLamb, lambName_toList]; simp
  · have := decode_idx (n := lambName k i j) (p := 'l' :: 'a' :: 'm' :: 'b' :: digits k) (i := i) (j := j) (by simp [bar_notMem])
      (by rw [lambName_toList]; simp)
    rw [this]
    congr 3
    rw [← String.toList_inj]
    simp [String.toList_append, digits]

/-- **C21**, equality multipliers: the name made for `(k, i, j)` is recognised as an equality multiplier, not as an inequality
multiplier, and decodes to the variable `nu{k}` and the indices `i, j`. -/
theorem C21_nu (k i j : ℕ) : isLamb (nuName k i j) = false ∧ isNu (nuName k i j) = true ∧ decodeDual (nuName k i j) = .ok ("nu" ++ toString k, i, j) := by
  refine ⟨?_, ?_, ?_⟩
  · rw [isLamb, nuName_toList]; simp
  · rw [isNu, nuName_toList]; simp
  · have := decode_idx (n := nuName k i j) (p := 'n' :: 'u' :: digits k) (i := i) (j := j) (by simp [bar_notMem])
      (by rw [nuName_toList]; simp)
    rw [this]
    congr 3
    rw [← String.toList_inj]
    simp [String.toList_append, digits]

/-- **C21**, injectivity: two multipliers never share a name. -/
theorem C21_injective {k i j k' i' j' : ℕ} : (lambName k i j = lambName k' i' j' → k = k' ∧ i = i' ∧ j = j') ∧
    (nuName k i j = nuName k' i' j' → k = k' ∧ i = i' ∧ j = j') ∧ lambName k i j ≠ nuName k' i' j' :=
  ⟨lambName_inj, nuName_inj, lambName_ne_nuName⟩

/-- **C21**, parameters: in a monomial of discretization parameters of the package no multiplier is found. -/
theorem C21_params {l : List Name}
    (h : ∀ n ∈ l, n ∈ ["eta", "h", "rho", "alpha", "beta", "gamma", "delta", "invalpha", "invbeta", "invh", "inveta", "invrho", "invgamma", "invdelta"]) :
    (findDual l).countLamb = 0 ∧ (findDual l).countNu = 0 := by
  have h1 : ∀ n ∈ l, isLamb n = false ∧ isNu n = false := fun n hn => by
    have : ∀ m ∈ ["eta", "h", "rho", "alpha", "beta", "gamma", "delta", "invalpha", "invbeta", "invh", "inveta", "invrho", "invgamma", "invdelta"],
        isLamb m = false ∧ isNu m = false := by decide +kernel
    exact this n (h n hn)
  obtain ⟨c1, c2, -, -⟩ := findDual_spec l
  rw [c1, c2, List.countP_eq_zero, List.countP_eq_zero]
  exact ⟨fun n hn => by simp [h1 n hn], fun n hn => by simp [h1 n hn]⟩

/-- **C21**, mistaken parameters: converting the monomial consisting of a parameter whose name starts with `lamb` or `nu` (and has no
bar) raises ValueError, whatever variables exist. -/
theorem C21_mistaken {n : Name} (hd : IsDual n) (hb : '|' ∉ n.toList) (st : CaState) : lambMonomial [n] st = .error .value := by
  have hdec : decodeDual n = .error .value := by rw [decodeDual, List.splitOn_eq_singleton hb]
  rw [lambMonomial, if_pos (by simp)]
  rcases hd with hd | hd
  · have : findDual [n] = ⟨1, 0, 0, 0⟩ := by simp [findDual, dualStep, hd]
    rw [this]
    simp only [Nat.zero_add, le_refl, if_true, gt_iff_lt, Nat.lt_one_iff, dualMonomial, List.getElem?_cons_zero, hdec]
    rfl
  · by_cases hl : isLamb n = true
    · have : findDual [n] = ⟨1, 0, 0, 0⟩ := by simp [findDual, dualStep, hl]
      rw [this]
      simp only [Nat.zero_add, le_refl, if_true, gt_iff_lt, Nat.lt_one_iff, dualMonomial, List.getElem?_cons_zero, hdec]
      rfl
    · have : findDual [n] = ⟨0, 1, 0, 0⟩ := by simp [findDual, dualStep, hl, hd]
      rw [this]
      simp only [Nat.add_zero, le_refl, if_true, gt_iff_lt, lt_self_iff_false, if_false, Nat.lt_one_iff, dualMonomial, List.getElem?_cons_zero, hdec]
      rfl

/-- **C22.** Converting any sequence of polynomials (in parameters and multiplier entries, names without underscore) gives one solver
expression for each, and at every point satisfying the solver constraints each of them has the value of its polynomial at the values
of the variables.  The earlier constraints are still there. -/
theorem C22_exact (hC : C.Lawful) {es : List Sym} {xs : List CExp} {st st' : CaState} (w : st.Wf) (hp : st.PlainKeys)
    (hv : ∀ e ∈ es, ∀ n ∈ e.vars, Plain n) (h : exprsToCasadi C es st = .ok (xs, st')) :
    xs.length = es.length ∧ ∀ σ, st'.Sat σ → st.Sat σ ∧
      ∀ (i : ℕ) (x : CExp) (e : Sym), xs[i]? = some x → es[i]? = some e → x.eval σ = e.eval (st.symVal σ) := by
  obtain ⟨-, e1, -, v1⟩ := exprsToCasadi_spec hC es (CaInv.of_plain w hp) h
  have hlen : xs.length = es.length := by
    clear v1 e1 hv hp w
    induction es generalizing xs st with
    | nil => rw [exprsToCasadi] at h; injection h with h; simp only [Prod.mk.injEq] at h; rw [← h.1]; rfl
    | cons e es ih =>
      rw [exprsToCasadi] at h
      obtain ⟨⟨y, st1⟩, h1, h⟩ := Except.bind_ok_iff.1 h
      obtain ⟨⟨ys, st2⟩, h2, h⟩ := Except.bind_ok_iff.1 h
      injection h with h
      simp only [Prod.mk.injEq] at h
      obtain ⟨rfl, rfl⟩ := h
      rw [List.length_cons, List.length_cons, ih h2]
  refine ⟨hlen, fun σ hσ => ⟨e1.sat hσ, fun i x e hx he => ?_⟩⟩
  have := congrArg (fun l => l[i]?) (v1 σ hσ)
  simp only [List.getElem?_map, hx, he, Option.map_some, Option.some.injEq] at this
  rw [this, eval_longEnv_plain (hv e (List.mem_of_getElem? he))]

/-- **C22**, extension: every point satisfying the constraints before the conversion extends, by values of the new variables only, to a
point satisfying the constraints after it. -/
theorem C22_extend (hC : C.Lawful) {es : List Sym} {xs : List CExp} {st st' : CaState} (w : st.Wf) (hp : st.PlainKeys)
    (h : exprsToCasadi C es st = .ok (xs, st')) {σ : ℕ → ℕ → ℕ → ℝ} (hσ : st.Sat σ) :
    ∃ σ', (∀ v < st.sizes.length, ∀ a b, σ' v a b = σ v a b) ∧ st'.Sat σ' :=
  (exprsToCasadi_spec hC es (CaInv.of_plain w hp) h).2.1.ext σ hσ

/-- **C22**, success: the conversion raises no error if no name contains an underscore, every parameter is a scalar variable, every
multiplier symbol decodes to an entry of a variable, and no monomial has two multipliers. -/
theorem C22_ok (hC : C.Lawful) {es : List Sym} {st : CaState} (w : st.Wf) (hp : st.PlainKeys)
    (hv : ∀ e ∈ es, ∀ n ∈ e.vars, Plain n ∧
      (¬ IsDual n → ∃ v, st.vars.get? n = some v ∧ v.rows = 1 ∧ v.cols = 1) ∧
      (IsDual n → ∃ pre a b v, decodeDual n = .ok (pre, a, b) ∧ st.vars.get? pre = some v ∧ a < v.rows ∧ b < v.cols))
    (hd : ∀ e ∈ es, ∀ t ∈ C.poly (C.simp e), (monoParts t).countP (fun n => decide (IsDual n)) ≤ 1) :
    ∃ r, exprsToCasadi C es st = .ok r := by
  refine exprsToCasadi_ok hC es (CaInv.of_plain w hp) (fun kv hk hn => absurd (hp _ (List.mem_map_of_mem hk)) hn) fun e he => ⟨fun n hn => ?_, hd e he⟩
  obtain ⟨h1, h2, h3⟩ := hv e he n hn
  refine ⟨h1, ?_⟩
  rw [HasVar]
  split
  · rename_i hh
    obtain ⟨pre, a, b, v, q1, q2, q3⟩ := h3 hh
    exact ⟨pre, a, b, .var v.id a b, q1, by rw [CaState.entry, q2]; simp [q3]⟩
  · rename_i hh
    obtain ⟨v, q1, q2⟩ := h2 hh
    exact ⟨_, scalar_of_get q1 q2⟩

/-- **C22** for the conversion of polynomials without multipliers (`sympy_expression_to_casadi`). -/
theorem C22_plain (hC : C.Lawful) {e : Sym} {x : CExp} {st st' : CaState} (w : st.Wf) (hp : st.PlainKeys) (hv : ∀ n ∈ e.vars, Plain n)
    (h : exprToCasadi C e st = .ok (x, st')) :
    (∀ σ, st'.Sat σ → st.Sat σ ∧ x.eval σ = e.eval (st.value σ)) ∧
    ∀ σ, st.Sat σ → ∃ σ', (∀ v < st.sizes.length, ∀ a b, σ' v a b = σ v a b) ∧ st'.Sat σ' := by
  obtain ⟨-, e1, -, v1⟩ := exprToCasadi_spec hC (CaInv.of_plain w hp) h
  exact ⟨fun σ hσ => ⟨e1.sat hσ, by rw [v1 σ hσ, eval_longEnv_plain hv]⟩, e1.ext⟩

/-! ### Non-vacuity -/

/-- parameters `h`, `b` and a multiplier matrix `lamb1` -/
def exCa : CaState := ((⟨[], [], []⟩ : CaState).newVar "h" 1 1).newVar "b" 1 1 |>.newVar "lamb1" 2 2

theorem exCa_wf : exCa.Wf := ⟨by unfold Dict.NodupKeys; decide +kernel, by decide +kernel, by intro c hc; cases hc⟩

theorem exCa_plain : exCa.PlainKeys := by unfold CaState.PlainKeys; decide +kernel

example : exCa.Sat fun _ _ _ => 0 := by intro c hc; cases hc

/-- `3 h h b + lamb1|0.1| h h` and then `b h h`: two product variables, the second polynomial needs one more -/
example : ∃ r, exprsToCasadi refCAS [Sym.num 3 * Sym.var "h" * Sym.var "h" * Sym.var "b" + Sym.var (lambName 1 0 1) * Sym.var "h" * Sym.var "h",
      Sym.var "b" * Sym.var "h" * Sym.var "h"] exCa = .ok r ∧
    Dict.keys r.2.vars = ["h", "b", "lamb1", "b_h", "b_h_h", "h_h"] ∧ r.2.cons.length = 3 :=
  ok_of_check (by decide +kernel)

example : lambMonomial ["nu"] exCa = .error .value := C21_mistaken (by decide +kernel) (by decide +kernel) _

/-- a parameter called `nu` cannot be used -/
example : exprToCasadiLamb refCAS (Sym.var "nu" * Sym.var "h") (exCa.newVar "nu" 1 1) = .error .value := by decide +kernel

end Verif
