import Verif.Proofs.AdmmRun
import Verif.Proofs.CompleteEq
import Verif.Props.Lower

/-!
# C79, C73, C80: `admm_consensus` with any number of smooth functions is analysed exactly
-/

namespace Verif
open Build Heap
open scoped InnerProductSpace

variable {C : CAS} {α β σ : Type}

/-! ### The constraint of the circuit is redundant -/

/-- builders without constraints -/
def Unconstr (c : Build α) : Prop := ∀ n, ∀ i ∈ (c n).2.2, ∀ e kd, i ≠ .constr e kd

theorem Unconstr.of_quiet {c : Build α} (h : QuietB c) : Unconstr c := by
  rintro n i hi e kd rfl
  have := h n _ hi
  simp [Instr.Quiet] at this
theorem Unconstr.emit {i : Instr} (h : ∀ e kd, i ≠ .constr e kd) (a : Counts → α) : Unconstr (emit i a) := by
  intro n j hj
  simp only [Build.emit, List.mem_singleton] at hj
  rw [hj]; exact h
theorem Unconstr.ret (a : α) : Unconstr (ret a) := .of_quiet (.ret a)
theorem Unconstr.pure (a : α) : Unconstr (pure a) := .ret a
theorem Unconstr.andThen {c : Build α} {f : α → Build β} (h : Unconstr c) (h' : ∀ a, Unconstr (f a)) : Unconstr (andThen c f) := by
  intro n i hi
  simp only [Build.andThen] at hi
  rcases List.mem_append.1 hi with hi | hi
  · exact h _ _ hi
  · exact h' _ _ _ hi
theorem Unconstr.bind {c : Build α} {f : α → Build β} (h : Unconstr c) (h' : ∀ a, Unconstr (f a)) : Unconstr (c >>= f) := .andThen h h'
theorem Unconstr.loop {body : σ → α → Build σ} (h : ∀ s a, Unconstr (body s a)) : ∀ (l : List α) (s : σ), Unconstr (loop body l s)
  | [], _ => .ret _
  | a :: l, s => .andThen (h s a) (Unconstr.loop h l)
theorem Unconstr.fnArg (f : FE) : Unconstr (fnArg f) := by cases f <;> first | exact .ret _ | exact .emit (by simp) _
theorem Unconstr.stationary (f : FE) : Unconstr (Build.stationary f) := .andThen (.fnArg f) fun _ => .emit (by simp) _
theorem Unconstr.oracle (f : FE) (x : PE) : Unconstr (Build.oracle f x) :=
  .andThen (.fnArg f) fun _ => .andThen (.of_quiet (.ptArg x)) fun _ => .emit (by simp) _
theorem Unconstr.prox (x : PE) (f : FE) (g : Sym) : Unconstr (Build.prox x f g) :=
  .andThen (.of_quiet (.ptArg x)) fun _ => .andThen (.fnArg f) fun _ => .emit (by simp) _
theorem Unconstr.defineSum (mu : ℚ) (L : Option ℚ) (m : ℕ) : Unconstr (Build.defineSum mu L m) := by
  unfold Build.defineSum
  exact .bind (.emit (by simp) _) fun _ => .loop (fun _ _ => .bind (.emit (by simp) _) fun _ => .bind (.emit (by simp) _) fun _ => .pure _) _ _
theorem Unconstr.starStep (x : PE) (s : List PE × Option PE) (f : FE) : Unconstr (starStep x s f) := by
  unfold Build.starStep
  exact .bind (.oracle _ _) fun _ => .bind (.of_quiet (.addTo _ _)) fun _ => .pure _
theorem Unconstr.proxStep (R : ℚ) (e : PE) (s : List (PE × PE × EE) × Option PE) (a : PE × FE) : Unconstr (proxStep R e s a) := by
  unfold Build.proxStep
  exact .bind (.prox _ _ _) fun _ => .bind (.of_quiet (.addTo _ _)) fun _ => .pure _

section
variable {E : Type} [NormedAddCommGroup E] [InnerProductSpace ℝ E] {SR : ℕ → E → E → ℝ → Prop} {env : Name → ℝ} {V : Vals E}

omit [NormedAddCommGroup E] [InnerProductSpace ℝ E] in
theorem consVals_unconstr : ∀ {is : List Instr}, (∀ i ∈ is, ∀ e kd, i ≠ .constr e kd) → consVals V is = []
  | [], _ => rfl
  | i :: is, h => by
    have h1 := h i (by simp)
    have h2 := consVals_unconstr (is := is) fun j hj => h j (by simp [hj])
    cases i <;> first | exact h2 | exact absurd rfl (h1 _ _)

variable (SR env V) in
/-- the equality constraints of `c` hold under every assignment that meets its calls -/
def EnsC (c : Build α) : Prop := ∀ n nd, MeetsAll SR env V (c n).2.2 n nd → ∀ q ∈ consVals V (c n).2.2, q.2 = .equality → q.1 = 0

theorem EnsC.of_unconstr {c : Build α} (h : Unconstr c) : EnsC SR env V c := fun n nd _ q hq => by
  rw [consVals_unconstr (h n)] at hq; cases hq

theorem EnsC.bind {c : Build α} {f : α → Build β} {P : α → Prop} (hc : Coh c) (hu : Unconstr c) (h : Ens SR env V c P)
    (hf : ∀ a, P a → EnsC SR env V (f a)) : EnsC SR env V (c >>= f) := by
  intro n nd h1 q hq
  have e : ((c >>= f) n).2.2 = (c n).2.2 ++ (f (c n).1 (c n).2.1).2.2 := rfl
  rw [e] at h1 hq
  rw [meetsAll_append, ← hc n] at h1
  rw [consVals_append, consVals_unconstr (hu n), List.nil_append] at hq
  exact hf _ (h n nd h1.1 (by rw [consVals_unconstr (hu n)]; simp [ConsOk])) _ _ h1.2 q hq

/-- the first call of a program -/
theorem EnsC.start {c : Build α} {f : α → Build β} {P : α → ℕ → Prop} (hc : Coh c) (hu : Unconstr c) (h : EnsN SR env V c 0 P)
    (hf : ∀ a n, P a n → EnsC SR env V (f a)) (h1 : MeetsAll SR env V (c >>= f).prog ⟨0, 0, 0⟩ 0) :
    ∀ q ∈ consVals V (c >>= f).prog, q.2 = .equality → q.1 = 0 := by
  intro q hq
  have e : (c >>= f).prog = (c ⟨0, 0, 0⟩).2.2 ++ (f (c ⟨0, 0, 0⟩).1 (c ⟨0, 0, 0⟩).2.1).2.2 := rfl
  rw [e] at h1 hq
  rw [meetsAll_append, ← hc ⟨0, 0, 0⟩] at h1
  rw [consVals_append, consVals_unconstr (hu _), List.nil_append] at hq
  exact hf _ _ (h _ h1.1 (by rw [consVals_unconstr (hu _)]; simp [ConsOk])) _ _ h1.2 q hq

/-- one constraint, and none after it -/
theorem EnsC.equality {e : EE} {f : Unit → Build β} (he : e.val env V = 0) (hf : ∀ a, Unconstr (f a)) : EnsC SR env V (Build.equality e >>= f) := by
  intro n nd h1 q hq _
  have e' : ((Build.equality e >>= f) n).2.2 = (Build.equality e n).2.2 ++ (f (Build.equality e n).1 (Build.equality e n).2.1).2.2 := rfl
  rw [e'] at h1 hq
  rw [meetsAll_append] at h1
  rw [consVals_append, consVals_unconstr (hf _ _), List.append_nil] at hq
  have : ∃ i, V.ex i = e.val env V ∧ consVals V (Build.equality e n).2.2 = [(V.ex i, .equality)] := by
    cases e with
    | reg i => exact ⟨i, rfl, rfl⟩
    | _ => exact ⟨_, h1.1.1, rfl⟩
  obtain ⟨i, h2, h3⟩ := this
  rw [h3, List.mem_singleton] at hq
  rw [hq]
  exact h2.trans he
end

/-- the constraint of `admm_consensus` (the gradients at the solution have sum 0) is redundant for differentiable functions -/
theorem redundant_admmConsensus (k : ℕ) {mu L : ℚ} (R Ind : ℚ) (hmu : 0 ≤ mu) (hL : mu < L) (p : Name → ℝ) :
    Redundant (admmConsensus k mu (some L) R Ind).prog p := by
  intro E _ _ fs hi rr hx
  have hdecl := decls_admmConsensus k mu (some L) R Ind
  have hf : ∀ i < k + 2, (defDecl mu (some L)).Holds (fs i) := fun i hlt => hi i _ (by rw [hdecl, List.getElem?_replicate, if_pos hlt])
  obtain ⟨h1, h2⟩ := meets_of_realExec (safe_admmConsensus k mu (some L) R Ind) hx
  rw [h2]
  unfold admmConsensus at h1 ⊢
  refine EnsC.start (coh_defineSum _ _ _) (.defineSum _ _ _) (ensN_defineSum _ _ _) ?_ h1
  rintro ⟨l, f⟩ - ⟨⟨hl, hl'⟩, hf'⟩
  dsimp only at hl hl' hf' ⊢
  refine EnsC.bind (.stationary _) (.stationary _) (.stationary _) ?_
  rintro ⟨xs, ys, vst⟩ ⟨b1, b2⟩
  dsimp only at b1 b2 ⊢
  rw [hf'] at b1
  obtain ⟨y0, w0, c1, c2, -⟩ := samples_of_range b1
  refine EnsC.bind (.loop (coh_starStep _) _ _) (.loop (fun _ _ => .starStep _ _ _) _ _) (ens_star _ _) ?_
  rintro ⟨yst, ysum⟩ ⟨⟨l5, d1⟩, d2⟩
  dsimp only at l5 d1 d2 ⊢
  rw [hl] at l5 d1
  refine EnsC.equality ?_ fun _ => ?_
  · have e : ∀ i < k + 2, (yst.getD i (.reg 0)).val p rr.vals = y0 i := by
      intro i hi
      obtain ⟨e, he⟩ : ∃ e, l[i]? = some e := ⟨_, List.getElem?_eq_getElem (by omega)⟩
      obtain ⟨v, hv⟩ := d2 i e _ he (getD_some (.reg 0) l5 hi)
      rw [hl' i e he] at hv
      exact gradient_unique hmu hL (hf i hi) (sample_of_single hv) (c1 i hi)
    have hys : vsum p rr.vals yst = 0 := by
      rw [vsum_range (.reg 0), l5, c2]
      exact Finset.sum_congr rfl fun i hi => e i (Finset.mem_range.1 hi)
    show ‖(ysum.getD (.reg 0)).val p rr.vals - ys.val p rr.vals‖ ^ 2 = 0
    rw [d1.getD (by omega), b2, hys, sub_zero, norm_zero, zero_pow two_ne_zero]
  · refine .bind (.of_quiet .initial) fun _ => .bind (.of_quiet (.loop .currentStep _ _)) ?_
    rintro ⟨iL, last⟩
    refine .bind (.loop (fun _ _ => .proxStep _ _ _ _) _ _) ?_
    rintro ⟨t15, s⟩
    refine .bind (.of_quiet (.mapB (fun _ => .pt _) _)) fun _ => .bind (.of_quiet (.pt _)) fun _ => .bind (.loop (fun _ _ => .proxStep _ _ _ _) _ _) ?_
    rintro ⟨t2, s⟩
    refine .bind (.of_quiet (.pt _)) fun _ => .bind (.of_quiet (.mapB (fun _ => .pt _) _)) fun _ => .bind (.of_quiet (.ex _)) fun _ =>
      .bind (.of_quiet (.ex _)) fun _ => .bind (.of_quiet (.ex _)) fun _ => .bind (.of_quiet (.loop (fun _ _ => .admmEnergyStep _ _ _ _ _) _ _)) ?_
    rintro ⟨_, _, _⟩
    exact .bind (.of_quiet (.finishMetric _ _ _)) fun _ => .pure _

/-! ### A run in which the points are different -/

/-- an execution from a derivation -/
theorem TrkE.exec {E : Type} [NormedAddCommGroup E] [InnerProductSpace ℝ E] {fs : ℕ → CFun E} {W : Set Name} {D : FnDecl} {env : Name → ℝ} {c : Build α}
    {Q : α → RRegs E → List Bool → (ℕ → List ℕ) → Prop} (h : TrkE W D (fun k => (fs k).Sample) env c (RRegs.empty E) [] Q) :
    ∃ rr, RealExec fs env c.prog rr ∧ (∀ q ∈ rr.cons, q.2 = .equality) ∧ SafeProg c.prog ⟨0, 0, 0⟩ = true ∧ Standard c.prog = true ∧
      (∀ i ∈ c.prog, i.Fine W D) ∧ ∃ a, Q a rr (declAll [] c.prog) fun k => calls k c.prog := by
  obtain ⟨rr, h1, -, h3, h4, -, h6, h7, hq⟩ := h
  exact ⟨rr, h1, fun q hq => (h6 q hq).elim (fun h => by simp [RRegs.empty] at h) id, h3, h7, h4, _, hq⟩

/-- the runs of the builder on `c x² / 2`, from `e` and the currents `t / R` with `t = 1, …, 1, -(n - 1)` -/
theorem run_admmConsensus (k : ℕ) {mu : ℚ} {L : Option ℚ} {R : ℚ} (Ind : ℚ) {c : ℝ} (hmu : 0 ≤ mu) (hR : 0 < R) (hc : Inside mu L c) (e : ℝ) (p : Name → ℝ) :
    ∃ (rr : RRegs ℝ) (t : ℕ → ℝ), RealExec (fun _ => quadF c 0) p (admmConsensus k mu L R Ind).prog rr ∧ (∀ q ∈ rr.cons, q.2 = .equality) ∧
      Standard (admmConsensus k mu L R Ind).prog = true ∧
      (∀ i ∈ (admmConsensus k mu L R Ind).prog, i.Fine {n | n ∈ stdParams} (defDecl mu L)) ∧
      (∃ v, rr.metric = some v) ∧ (∀ i, t i = 1 ∨ t i = -((k : ℝ) + 1)) ∧
      ∃ j0, At rr j0 0 ∧ ∀ i < k + 2, ∃ a b, calls i (admmConsensus k mu L R Ind).prog = [j0, j0, a, b] ∧ At rr a ((t i + e) / (1 + R * c)) ∧
        At rr b ((t i * (1 + R * c - R * (p "alpha" * p "h" / Ind)) + e * (1 + R * (p "alpha" * p "h" / Ind) * (k + 1))) / (1 + R * c) ^ 2) := by
  have hR' : (0 : ℝ) < R := by exact_mod_cast hR
  have hc0 : 0 < c := lt_of_le_of_lt (by exact_mod_cast hmu) hc.1
  set t : ℕ → ℝ := fun i => if i = k + 1 then -((k : ℝ) + 1) else 1 with hi1
  have hsum : ∑ i ∈ Finset.range (k + 2), t i = 0 := by
    rw [Finset.sum_range_succ, Finset.sum_congr rfl (g := fun _ => (1 : ℝ)) fun i hi => by rw [Finset.mem_range] at hi; simp only [hi1]; rw [if_neg (by omega)]]
    simp [hi1]
  have hne : ∀ i, t i = 1 ∨ t i = -((k : ℝ) + 1) := by
    intro i
    simp only [hi1]
    split
    · exact .inr rfl
    · exact .inl rfl
  clear_value t
  set s := p "alpha" * p "h" / Ind with ht
  have hD : (1 : ℝ) + R * c ≠ 0 := by positivity
  set D := (1 : ℝ) + R * c with hDd
  have hsx : ∑ i ∈ Finset.range (k + 2), (t i + e) / D = ((k : ℝ) + 2) * e / D := by
    rw [← Finset.sum_div, Finset.sum_add_distrib, hsum]
    simp
  have hk : ((k : ℝ) + 2) ≠ 0 := by positivity
  have key := trk_admmConsensus (k := k) (R := R) (Ind := Ind) (D := defDecl mu L) rfl
    (SR := fun k => (quadF c 0).Sample) (env := p)
    (x_star := 0) (e1 := e) (s15 := ((k : ℝ) + 2) * e / D) (e15 := e / D) (ys := fun _ => 0) (vs := fun _ => 0) (i1 := fun i => t i / R)
    (x15 := fun i => (t i + e) / D) (g15 := fun i => c * ((t i + e) / D)) (v15 := fun i => c / 2 * ((t i + e) / D) ^ 2)
    (i15 := fun i => t i / R + s * (((k : ℝ) + 2) * e / D - (t i + e) / D))
    (x2 := fun i => (t i * (D - R * s) + e * (1 + R * s * (k + 1))) / D ^ 2)
    (g2 := fun i => c * ((t i * (D - R * s) + e * (1 + R * s * (k + 1))) / D ^ 2))
    (v2 := fun i => c / 2 * ((t i * (D - R * s) + e * (1 + R * s * (k + 1))) / D ^ 2) ^ 2)
    (fun i _ => quadF_smp0 hc0) (by simp) (by rw [← Finset.sum_div, hsum, zero_div]) (fun i _ => quadF_smp hc0 _)
    (fun i _ => by
      simp only [smul_eq_mul]
      rw [mul_div_cancel₀ _ hR'.ne']
      have : (t i + e) / D + R * (c * ((t i + e) / D)) = (t i + e) / D * D := by rw [hDd]; ring
      rw [this, div_mul_cancel₀ _ hD])
    hsx.symm (fun i _ => by simp; left; rw [← ht])
    (by push_cast; rw [smul_eq_mul]; field_simp)
    (fun i _ => quadF_smp hc0 _)
    (fun i _ => by
      simp only [smul_eq_mul]
      have : ∀ x : ℝ, x + R * (c * x) = x * D := fun x => by rw [hDd]; ring
      rw [this]
      field_simp
      ring)
    rfl (fun i _ => rfl)
  obtain ⟨rr, h1, h6, -, h7, h4, -, hm, -, j0, h9, h10⟩ := TrkE.exec (fs := fun _ => quadF c 0) key
  exact ⟨rr, t, h1, h6, h7, h4, hm, hne, j0, h9, h10⟩

/-- `c` and `e` for which the points of the run are different -/
theorem generic_admm (k : ℕ) {mu L : ℚ} {R : ℚ} (hok : (defDecl mu (some L)).Ok) (hR : 0 < R) (w : ℝ) :
    ∃ c e : ℝ, Inside mu (some L) c ∧ ∀ t : ℝ, t = 1 ∨ t = -((k : ℝ) + 1) → t + e ≠ 0 ∧ t * (1 + R * c - R * w) + e * (1 + R * w * (k + 1)) ≠ 0 ∧
      t * (1 + R * c - R * w) + e * (1 + R * w * (k + 1)) ≠ (t + e) * (1 + R * c) := by
  have hR' : (0 : ℝ) < R := by exact_mod_cast hR
  obtain ⟨c, hc, hne⟩ := (generic [fun c => 1 + R * c - R * w, fun c => R * w * (k + 1) - R * c] (inside_infinite hok) (by
    simp only [List.forall_mem_cons, List.not_mem_nil, false_implies, implies_true, and_true]
    refine ⟨⟨by is_poly, w, by simp⟩, by is_poly, w * (k + 1) + 1, ?_⟩
    rw [show R * w * (k + 1) - R * (w * (k + 1) + 1) = -(R : ℝ) by ring]
    exact neg_ne_zero.2 hR'.ne')).nonempty
  simp only [List.forall_mem_cons, List.not_mem_nil, false_implies, implies_true, and_true] at hne
  obtain ⟨n1, n2⟩ := hne
  have hk : (0 : ℝ) < k + 1 := by positivity
  generalize hA : 1 + (R : ℝ) * c - R * w = A at n1 ⊢
  generalize hB : (R : ℝ) * w * (k + 1) - R * c = B at n2 ⊢
  have hs : ∀ t : ℝ, t ≠ 0 → ∃ x, t * A + x * (1 + R * w * (k + 1)) ≠ 0 := fun t ht => ⟨0, by simpa using ⟨ht, n1⟩⟩
  have hs' : ∀ t : ℝ, ∃ x, t * (R * w) - x * B ≠ 0 := fun t => ⟨(t * (R * w) + 1) / B, by rw [div_mul_cancel₀ _ n2]; simp⟩
  obtain ⟨e, -, hne⟩ := (generic [fun e => 1 + e, fun e => -((k : ℝ) + 1) + e, fun e => 1 * A + e * (1 + R * w * (k + 1)),
    fun e => -((k : ℝ) + 1) * A + e * (1 + R * w * (k + 1)), fun e => 1 * (R * w) - e * B, fun e => -((k : ℝ) + 1) * (R * w) - e * B] Set.infinite_univ (by
    simp only [List.forall_mem_cons, List.not_mem_nil, false_implies, implies_true, and_true]
    exact ⟨⟨by is_poly, 0, by simp⟩, ⟨by is_poly, 0, by linarith⟩, ⟨by is_poly, hs 1 one_ne_zero⟩, ⟨by is_poly, hs _ (by linarith)⟩,
      ⟨by is_poly, hs' 1⟩, by is_poly, hs' _⟩)).nonempty
  simp only [List.forall_mem_cons, List.not_mem_nil, false_implies, implies_true, and_true] at hne
  obtain ⟨m1, m2, m3, m4, m5, m6⟩ := hne
  refine ⟨c, e, hc, ?_⟩
  rw [hA]
  have hd : ∀ t : ℝ, t * A + e * (1 + R * w * (k + 1)) = (t + e) * (1 + R * c) → t * (R * w) - e * B = 0 := by
    intro t h
    rw [← hA] at h
    rw [← hB]
    linarith
  rintro t (rfl | rfl)
  · exact ⟨m1, m3, fun h => m5 (hd _ h)⟩
  · exact ⟨m2, m4, fun h => m6 (hd _ h)⟩

/-- a program with a metric sets it -/
theorem metric_mem {E : Type} [NormedAddCommGroup E] [InnerProductSpace ℝ E] {fs : ℕ → CFun E} {env : Name → ℝ} {prog : List Instr} {rr : RRegs E} {v : ℝ}
    (hs : SafeProg prog ⟨0, 0, 0⟩ = true) (hx : RealExec fs env prog rr) (hv : rr.metric = some v) : ∃ e, Instr.metric e ∈ prog := by
  rw [metric_of_realExec hs hx] at hv
  cases hm : metricReg prog none with
  | none => rw [hm] at hv; cases hv
  | some e =>
    have : ∀ (is : List Instr) m, metricReg is m = some e → m = some e ∨ Instr.metric e ∈ is := by
      intro is
      induction is with
      | nil => exact fun m h => .inl h
      | cons i is ih =>
        intro m h
        cases i with
        | metric e' =>
          rcases ih _ h with h | h
          · injection h with h; subst h; exact .inr List.mem_cons_self
          · exact .inr (List.mem_cons_of_mem _ h)
        | _ => exact (ih _ h).imp_right (List.mem_cons_of_mem _)
    rcases this _ _ hm with h | h
    · cases h
    · exact ⟨e, h⟩

/-- **C79** `admm_consensus` with any number `n = k + 2` of smooth functions, for all class parameters, resistances and inductances: at all parameter values the
nonlinear program of `solve_ipopt` has a feasible point with these parameters if and only if the energy inequality holds for
all functions of the class and all steps (and `eta`, `rho`, `h` are not negative). -/
theorem C79_admmConsensus (hC : C.Lawful) (k : ℕ) {mu L R Ind : ℚ} (hmu : 0 ≤ mu) (hL : mu < L) (hR : 0 < R) (_hInd : Ind ≠ 0) :
    ∃ r h nlp h', runProblem C (admmConsensus k mu (some L) R Ind).prog Heap.empty = .ok (r, h) ∧ solveIpopt C r stdParams [] [] h = .ok (nlp, h') ∧
      ∀ p : Name → ℝ, ((∃ σ, nlp.state.Sat σ ∧ ∀ n ∈ scalarNames stdParams, nlp.state.value σ n = p n) ↔
          AdmmConsensusStep (k + 2) mu (some L) R Ind p ∧ 0 ≤ p "eta" ∧ 0 ≤ p "rho" ∧ 0 ≤ p "h") := by
  have hR' : (0 : ℝ) < R := by exact_mod_cast hR
  have hok := defDecl_ok hmu hL
  have hs := safe_admmConsensus k mu (some L) R Ind
  have hdecl := decls_admmConsensus k mu (some L) R Ind
  obtain ⟨c, hc⟩ := (inside_infinite hok).nonempty
  obtain ⟨rr, -, h1, -, hst, hfine, ⟨v, hv⟩, -⟩ := run_admmConsensus k Ind hmu hR hc 0 fun _ => 0
  have hd : ∀ d ∈ decls (admmConsensus k mu (some L) R Ind).prog, d = defDecl mu (some L) := by rw [hdecl]; exact fun d h => List.eq_of_mem_replicate h
  obtain ⟨r, h, nlp, h', hr, hn, hiff⟩ := complete_of_redundant (prog := (admmConsensus k mu (some L) R Ind).prog) (params := stdParams)
    (Gen := fun _ => True) hC hs (fun i hi => (hfine i hi).1) hst (fresh_admmConsensus k mu (some L) R Ind _) (fun d hm => by
      rw [hd d hm]
      refine ⟨hok, ?_⟩
      by_cases h0 : mu = 0 <;> simp [defDecl, h0, FnDecl.Default]) stdParams_simple (metric_mem hs h1 hv) ⟨fun _ => 1, trivial⟩
    (fun p _ => redundant_admmConsensus k R Ind hmu hL p) (by
      rintro p -
      obtain ⟨c, e, hc, hne⟩ := generic_admm k hok hR (p "alpha" * p "h" / Ind)
      have hc0 : 0 < c := lt_of_le_of_lt (by exact_mod_cast hmu) hc.1
      obtain ⟨rr, t, h1, h2, -, -, -, h7, j0, h8, h9⟩ := run_admmConsensus k Ind hmu hR hc e p
      obtain ⟨hm, hcs⟩ := meets_of_realExec hs h1
      refine ⟨fun _ => quadF c 0, rr.vals, fun i d hi => ?_, fun i d hi => ?_, hm, ?_, fun i d hi => ?_⟩
      · rw [hd d (List.mem_of_getElem? hi)]; exact quadF_holds hmu hc 0
      · rw [hd d (List.mem_of_getElem? hi)]; exact quadF_strict hmu hc 0
      · rw [← hcs]
        intro q hq hk
        rw [h2 q hq] at hk; cases hk
      · have hlt : i < k + 2 := by have := (List.getElem?_eq_some_iff.1 hi).1; rwa [hdecl, List.length_replicate] at this
        have hre : d.reuse = true := by
          rw [hd d (List.mem_of_getElem? hi)]
          by_cases h0 : mu = 0 <;> simp [defDecl, h0, FnDecl.reuse]
        obtain ⟨a, b, e', ha, hb⟩ := h9 i hlt
        obtain ⟨m1, m2, m3⟩ := hne (t i) (h7 i)
        have hD : (1 : ℝ) + R * c ≠ 0 := by positivity
        have hx : (t i + e) / (1 + R * c) ≠ 0 := div_ne_zero m1 hD
        have hy := div_ne_zero m2 (pow_ne_zero 2 hD)
        have hxy : (t i * (1 + R * c - R * (p "alpha" * p "h" / Ind)) + e * (1 + R * (p "alpha" * p "h" / Ind) * (k + 1))) / (1 + R * c) ^ 2 ≠
            (t i + e) / (1 + R * c) := by
          intro h
          rw [div_eq_div_iff (pow_ne_zero 2 hD) hD, pow_two, ← mul_assoc] at h
          exact m3 (mul_right_cancel₀ hD h)
        generalize (t i + e) / (1 + R * c) = x at *
        generalize (t i * (1 + R * c - R * (p "alpha" * p "h" / Ind)) + e * (1 + R * (p "alpha" * p "h" / Ind) * (k + 1))) / (1 + R * c) ^ 2 = y at *
        rw [e']
        clear hi
        have q0 : rr.vals.pt j0 = 0 := h8.2
        have q1 : rr.vals.pt a = x := ha.2
        have q2 : rr.vals.pt b = y := hb.2
        refine .inr ⟨hre, ?_⟩
        simp [q0, q1, q2, hx, hy, hxy, hx.symm, hy.symm, hxy.symm])
  refine ⟨r, h, nlp, h', hr, hn, fun p => ?_⟩
  have hinv : InvOk stdParams p := fun v hv => absurd hv (by rw [show invParams stdParams = [] by decide]; simp)
  rw [hiff p trivial, guaranteed_admmConsensus]
  simp [hinv]

/-- **C73.** For `admm_consensus` with any number of smooth functions verification accepts exactly what `solve_ipopt` can find: the worst case at a dictionary with `eta`, `rho`, `h` not
negative is 0 if and only if its values are those of a feasible point of the nonlinear program. -/
theorem C73_admmConsensus_exact (hC : C.Lawful) {k : ℕ} {mu L R Ind : ℚ} (hmu : 0 ≤ mu) (hL : mu < L) (hR : 0 < R) (hInd : Ind ≠ 0) {res : Dict Name ℝ} {P : PepProblem}
    (hP : (Circuit.admmConsensus k mu (some L) R Ind).verify res = .ok P) (h0 : ∀ n ∈ ["eta", "rho", "h"], 0 ≤ P.value n) :
    ∃ r h nlp h', runProblem C (admmConsensus k mu (some L) R Ind).prog Heap.empty = .ok (r, h) ∧ solveIpopt C r stdParams [] [] h = .ok (nlp, h') ∧
      (P.worstCase = 0 ↔ ∃ σ, nlp.state.Sat σ ∧ ∀ n ∈ scalarNames stdParams, nlp.state.value σ n = P.value n) := by
  obtain ⟨r, h, nlp, h', h1, h2, hiff⟩ := C79_admmConsensus hC k hmu hL hR hInd
  refine ⟨r, h, nlp, h', h1, h2, ?_⟩
  rw [hiff, C73_admmConsensus (defDecl_ok hmu hL) hP]
  simp at h0
  simp [h0]

/-- **C80** for the program of `admm_consensus` with any number of smooth functions, at all parameter values: if the program has a feasible point, it also has one with smaller
weights `eta`, `rho` that are not negative and the same other values. -/
theorem C80_admmConsensus_program (hC : C.Lawful) (k : ℕ) {mu L R Ind : ℚ} (hmu : 0 ≤ mu) (hL : mu < L) (hR : 0 < R) (hInd : Ind ≠ 0) :
    ∃ r h nlp h', runProblem C (admmConsensus k mu (some L) R Ind).prog Heap.empty = .ok (r, h) ∧ solveIpopt C r stdParams [] [] h = .ok (nlp, h') ∧
      ∀ p q : Name → ℝ, (∀ n, n ≠ "eta" → n ≠ "rho" → q n = p n) → q "eta" ≤ p "eta" → q "rho" ≤ p "rho" → 0 ≤ q "eta" → 0 ≤ q "rho" →
        (∃ σ, nlp.state.Sat σ ∧ ∀ n ∈ scalarNames stdParams, nlp.state.value σ n = p n) → ∃ σ, nlp.state.Sat σ ∧ ∀ n ∈ scalarNames stdParams, nlp.state.value σ n = q n := by
  obtain ⟨r, h, nlp, h', h1, h2, hiff⟩ := C79_admmConsensus hC k hmu hL hR hInd
  refine ⟨r, h, nlp, h', h1, h2, fun p q hpq he hr he0 hr0 hσ => ?_⟩
  obtain ⟨g1, g2⟩ := (hiff p).1 hσ
  rw [← guaranteed_admmConsensus] at g1
  refine (hiff q).2 ⟨(guaranteed_admmConsensus _ _ _ _ _).1 ?_, he0, hr0, by rw [hpq "h" (by decide) (by decide)]; exact g2.2.2⟩
  exact C80_lower (c := .admmConsensus k mu (some L) R Ind) hR hpq he hr g1

/-- the hypotheses are satisfiable, and the program of the circuit with three functions has a feasible point -/
example : ∃ r h nlp h', runProblem refCAS (admmConsensus 1 (1 / 2) (some 1) 1 1).prog Heap.empty = .ok (r, h) ∧
    solveIpopt refCAS r stdParams [] [] h = .ok (nlp, h') ∧ ∃ σ, nlp.state.Sat σ ∧ nlp.state.value σ "eta" = 1 / 1000 ∧ nlp.state.value σ "h" = 1 / 2 := by
  obtain ⟨p, hp, -, -, -, he, -, hh, hr⟩ := C34_admmConsensus_feasible
  have hok : (defDecl (1 / 2) (some 1)).Ok := by simp [defDecl, FnDecl.Ok]; norm_num
  obtain ⟨r, h, nlp, h', e1, e2, hiff⟩ := C79_admmConsensus refCAS_lawful 1 (mu := 1 / 2) (L := 1) (R := 1) (Ind := 1) (by norm_num) (by norm_num) (by norm_num) (by norm_num)
  obtain ⟨c, hc⟩ := (inside_infinite hok).nonempty
  obtain ⟨-, -, -, -, -, hfine, -⟩ := run_admmConsensus 1 1 (by norm_num) (R := 1) (by norm_num) hc 0 fun _ => 0
  have hcl := fun i hi => (hfine i hi).1
  have hg : Guaranteed (admmConsensus 1 (1 / 2) (some 1) 1 1).prog p := guaranteed_of_feasible refCAS_lawful
    hcl (by decide) (by decide)
    (fun d hd => by rw [decls_admmConsensus] at hd; rw [List.eq_of_mem_replicate hd]; exact hok) hp
  obtain ⟨σ, h1, h2⟩ := (hiff p).2 ⟨(guaranteed_admmConsensus _ _ _ _ _).1 hg, by rw [he]; norm_num, by rw [hr]; norm_num, by rw [hh]; norm_num⟩
  exact ⟨r, h, nlp, h', e1, e2, σ, h1, by rw [h2 _ (by decide), he], by rw [h2 _ (by decide), hh]⟩

end Verif
