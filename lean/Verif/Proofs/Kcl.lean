import Verif.Proofs.BuildLogic

/-! # The consensus circuits, call by call -/

namespace Verif
open Build

variable {E : Type} [NormedAddCommGroup E] [InnerProductSpace ℝ E] {SR : ℕ → E → E → ℝ → Prop} {env : Name → ℝ} {V : Vals E}

variable (env V) in
/-- the sum of the points of a list -/
noncomputable def vsum (l : List PE) : E := (l.map fun e => e.val env V).sum

theorem vsum_append (a : List PE) (x : PE) : vsum env V (a ++ [x]) = vsum env V a + x.val env V := by simp [vsum]

variable (env V) in
/-- the value of a variable that is unset before the first round of a loop -/
def OptVal (o : Option PE) (j : ℕ) (v : E) : Prop := match o with
  | none => j = 0 ∧ v = 0
  | some z => z.val env V = v

theorem OptVal.getD {o : Option PE} {j : ℕ} {v : E} (h : OptVal env V o j v) (hj : j ≠ 0) : (o.getD (.reg 0)).val env V = v := by
  cases o with
  | none => exact absurd h.1 hj
  | some z => exact h

theorem Coh.addTo (o : Option PE) (x : PE) : Coh (addTo o x) := by cases o <;> first | exact .ret _ | exact .emit _ _
theorem Coh.subFrom (o : Option PE) (x : PE) : Coh (subFrom o x) := by cases o <;> exact .emit _ _
theorem Coh.addEx (o : Option EE) (x : EE) : Coh (addEx o x) := by cases o <;> exact .emit _ _

theorem Ens.addTo {o : Option PE} {j : ℕ} {v : E} (h : OptVal env V o j v) (x : PE) :
    Ens SR env V (addTo o x) fun r => r.val env V = v + x.val env V := by
  cases o with
  | none => exact .ret (by rw [h.2, zero_add])
  | some z => exact (Ens.pt _).mono fun r hr => by rw [hr, PE.val_add', show z.val env V = v from h]

theorem Ens.subFrom {o : Option PE} {j : ℕ} {v : E} (h : OptVal env V o j v) (x : PE) :
    Ens SR env V (subFrom o x) fun r => r.val env V = v - x.val env V := by
  cases o with
  | none => exact (Ens.pt _).mono fun r hr => by rw [hr, PE.val_neg', h.2, zero_sub]
  | some z => exact (Ens.pt _).mono fun r hr => by rw [hr, PE.val_sub', show z.val env V = v from h]

theorem coh_defineSum (mu : ℚ) (L : Option ℚ) (m : ℕ) : Coh (defineSum mu L m) :=
  .andThen (.define _ _) fun _ => .loop (fun _ _ => .andThen (.define _ _) fun _ => .andThen (.fn _) fun _ => .ret _) _ _

theorem ens_defineSum (mu : ℚ) (L : Option ℚ) (m : ℕ) : Ens SR env V (defineSum mu L m) fun r => r.1.length = m + 1 := by
  unfold defineSum
  refine Ens.bind (.define _ _) (.true _) fun f0 _ => ?_
  have := Ens.loop (SR := SR) (env := env) (V := V) (body := fun (s : List FE × FE) (_ : ℕ) => (do
      let f ← define mu L
      let g ← fn (s.2 + f)
      return (s.1 ++ [f], g))) (fun _ _ => .andThen (.define _ _) fun _ => .andThen (.fn _) fun _ => .ret _)
    (fun j s => s.1.length = j + 1) (l := List.range m) (s := ([f0], f0)) (j := 0) rfl (by
      intro s a i _ hs
      exact Ens.bind (.define _ _) (.true _) fun f _ => Ens.bind (.fn _) (.true _) fun g _ => .pure (by simp [hs]))
  exact this.mono fun r hr => by rw [hr, List.length_range]; omega

/-! ### sums over lists -/

omit [InnerProductSpace ℝ E] in
theorem sum_of_forall₂ {α β : Type} {l : List α} {bs : List β} {f : α → E} {g : β → E} (h : List.Forall₂ (fun a b => g b = f a) l bs) :
    (bs.map g).sum = (l.map f).sum := by
  induction h with
  | nil => rfl
  | cons h _ ih => simp [h, ih]

theorem vsum_add_zip {l : List PE} : ∀ {l' : List PE} {c : ℝ} {z : E}, l'.length = l.length →
    ((l.zip l').map fun a => a.1.val env V + c • (z - a.2.val env V)).sum =
      vsum env V l + c • ((l.length : ℝ) • z - vsum env V l') := by
  induction l with
  | nil => intro l' c z h; rw [List.eq_nil_of_length_eq_zero h]; simp [vsum]
  | cons x l ih =>
    intro l' c z h
    cases l' with
    | nil => simp at h
    | cons y l' =>
      simp only [List.zip_cons_cons, List.map_cons, List.sum_cons]
      rw [ih (by simpa using h)]
      simp only [vsum, List.map_cons, List.sum_cons, List.length_cons]
      push_cast
      module

theorem vsum_add_zip2 {l : List PE} : ∀ {l' l'' : List PE} {c d : ℝ} {z w : E}, l'.length = l.length → l''.length = l.length →
    ((l.zip (l'.zip l'')).map fun a => a.1.val env V + c • (z - a.2.1.val env V) + d • (w - a.2.2.val env V)).sum =
      vsum env V l + c • ((l.length : ℝ) • z - vsum env V l') + d • ((l.length : ℝ) • w - vsum env V l'') := by
  induction l with
  | nil => intro l' l'' c d z w h h'; rw [List.eq_nil_of_length_eq_zero h, List.eq_nil_of_length_eq_zero h']; simp [vsum]
  | cons x l ih =>
    intro l' l'' c d z w h h'
    cases l' with
    | nil => simp at h
    | cons y l' =>
    cases l'' with
    | nil => simp at h'
    | cons y' l'' =>
      simp only [List.zip_cons_cons, List.map_cons, List.sum_cons]
      rw [ih (by simpa using h) (by simpa using h')]
      simp only [vsum, List.map_cons, List.sum_cons, List.length_cons]
      push_cast
      module

/-! ### `dual_decomposition` -/

theorem coh_dualInitStep (s : (List PE × Option PE) × List PE × Option PE) (f : FE) : Coh (dualInitStep s f) :=
  .andThen .initial fun _ => .andThen (.subFrom _ _) fun _ => .andThen (.conj _ _) fun _ => .andThen (.addTo _ _) fun _ => .ret _

theorem coh_conjStep (s : List PE × Option PE) (a : PE × FE) : Coh (conjStep s a) :=
  .andThen (.conj _ _) fun _ => .andThen (.addTo _ _) fun _ => .ret _

theorem coh_finishMetric (a b c : EE) : Coh (finishMetric a b c) := .andThen (.metric _) fun _ => .ret _

theorem coh_dualEnergyStep (Ind : ℚ) (x_star : PE) (s : Option EE × Option EE × Option EE) (a : (PE × PE) × PE × PE) :
    Coh (dualEnergyStep Ind x_star s a) :=
  .andThen (.addEx _ _) fun _ => .andThen (.addEx _ _) fun _ => .andThen (.addEx _ _) fun _ => .ret _

theorem ens_dualInit (fs : List FE) : Ens SR env V (loop dualInitStep fs (([], none), [], none)) fun s =>
    s.1.1.length = fs.length ∧ s.2.1.length = fs.length ∧ OptVal env V s.1.2 fs.length (- vsum env V s.1.1) ∧
      OptVal env V s.2.2 fs.length (vsum env V s.2.1) := by
  have := Ens.loop (SR := SR) (env := env) (V := V) coh_dualInitStep (fun j s => s.1.1.length = j ∧ s.2.1.length = j ∧
      OptVal env V s.1.2 j (- vsum env V s.1.1) ∧ OptVal env V s.2.2 j (vsum env V s.2.1)) (l := fs) (s := (([], none), [], none)) (j := 0)
      ⟨rfl, rfl, by simp [OptVal, vsum], by simp [OptVal, vsum]⟩ (by
    rintro s f i - ⟨h1, h2, h3, h4⟩
    unfold dualInitStep
    refine Ens.bind .initial (.true _) fun y _ => Ens.bind (.subFrom _ _) (.subFrom h3 y) fun z hz =>
      Ens.bind (.conj _ _) (.true _) fun x _ => Ens.bind (.addTo _ _) (.addTo h4 x) fun w hw => .pure ?_
    refine ⟨by simp [h1], by simp [h2], ?_, ?_⟩
    · show z.val env V = _
      rw [hz, vsum_append]; abel
    · show w.val env V = _
      rw [hw, vsum_append])
  simpa using this

theorem ens_conjLoop (l : List (PE × FE)) : Ens SR env V (loop conjStep l ([], none)) fun s =>
    s.1.length = l.length ∧ OptVal env V s.2 l.length (vsum env V s.1) := by
  have := Ens.loop (SR := SR) (env := env) (V := V) coh_conjStep (fun j s => s.1.length = j ∧ OptVal env V s.2 j (vsum env V s.1)) (l := l)
      (s := ([], none)) (j := 0) ⟨rfl, by simp [OptVal, vsum]⟩ (by
    rintro s a i - ⟨h1, h2⟩
    unfold conjStep
    refine Ens.bind (.conj _ _) (.true _) fun x _ => Ens.bind (.addTo _ _) (.addTo h2 x) fun w hw => .pure ⟨by simp [h1], ?_⟩
    show w.val env V = _
    rw [hw, vsum_append])
  simpa using this

theorem vsum_of_forall₂ {α : Type} {l : List α} {bs : List PE} {f : α → E} (h : List.Forall₂ (fun a b => b.val env V = f a) l bs) :
    vsum env V bs = (l.map f).sum := sum_of_forall₂ h

/-- the currents of `dual_decomposition` -/
theorem ens_dualDecomposition (k : ℕ) (mu : ℚ) (L : Option ℚ) (Ind : ℚ) : Ens SR env V (dualDecomposition k mu L Ind) fun c =>
    (c.i1.length = k + 2 ∧ c.i15.length = k + 2 ∧ c.i2.length = k + 2) ∧
      vsum env V c.i1 = 0 ∧ vsum env V c.i15 = 0 ∧ vsum env V c.i2 = 0 := by
  unfold dualDecomposition
  refine Ens.bind (coh_defineSum _ _ _) (ens_defineSum _ _ _) ?_
  rintro ⟨fs, f⟩ hfs
  refine Ens.bind (.stationary _) (.true _) ?_
  rintro ⟨x_star, y_star, f_star⟩ -
  refine Ens.bind (.mapB (fun _ => .andThen (.oracle _ _) fun _ => .ret _) _) (.true _) fun ys_star _ => ?_
  refine Ens.bind (.loop coh_dualInitStep _ _) (ens_dualInit _) ?_
  rintro ⟨⟨iL, last⟩, xs, z⟩ ⟨h1, h2, h3, h4⟩
  simp only [List.length_dropLast] at hfs h1 h2 h3 h4
  dsimp only
  rw [hfs] at h1 h2 h3 h4
  refine Ens.bind (.conj _ _) (.true _) fun x_last _ => ?_
  refine Ens.bind (.addTo _ _) (.addTo h4 _) fun z' hz' => ?_
  refine Ens.bind (.pt _) (.pt _) fun z_1 hz1 => ?_
  have e1 : vsum env V (iL ++ [last.getD (.reg 0)]) = 0 := by rw [vsum_append, h3.getD (by omega)]; abel
  have e2 : z_1.val env V = ((k : ℝ) + 2)⁻¹ • vsum env V (xs ++ [x_last]) := by rw [hz1, PE.val_div', hz', vsum_append]; norm_num
  have l1 : (iL ++ [last.getD (.reg 0)]).length = k + 2 := by simp [h1]
  have l2 : (xs ++ [x_last]).length = k + 2 := by simp [h2]
  generalize iL ++ [last.getD (.reg 0)] = i1 at e1 l1 ⊢
  generalize xs ++ [x_last] = x1 at e2 l2 ⊢
  refine Ens.bind (.mapB (fun _ => .pt _) _) (Ens.mapB (fun _ => .pt _) fun a _ => .pt _) fun i15 h15 => ?_
  refine Ens.bind (.loop coh_conjStep _ _) (ens_conjLoop _) ?_
  rintro ⟨x15, z⟩ ⟨l3, hz⟩
  dsimp only at l3 hz ⊢
  have l15 : i15.length = k + 2 := by rw [← h15.length_eq]; simp [l1, l2]
  have hz15 : (i15.zip fs).length = k + 2 := by simp [l15, hfs]
  rw [hz15] at l3 hz
  refine Ens.bind (.pt _) (.pt _) fun z_15 hz15 => ?_
  have e3 : z_15.val env V = ((k : ℝ) + 2)⁻¹ • vsum env V x15 := by rw [hz15, PE.val_div', hz.getD (by omega)]; norm_num
  refine Ens.bind (.mapB (fun _ => .pt _) _) (Ens.mapB (fun _ => .pt _) fun a _ => .pt _) fun i2 hi2 => ?_
  refine Ens.bind (.loop (coh_dualEnergyStep _ _) _ _) (.true _) ?_
  rintro ⟨E_1, E_2, D⟩ -
  refine Ens.bind (coh_finishMetric _ _ _) (.true _) fun en _ => .pure ⟨⟨l1, l15, ?_⟩, e1, ?_, ?_⟩
  · rw [← hi2.length_eq]; simp [l1, l2, l3]
  · rw [vsum_of_forall₂ (l := i1.zip x1) (f := fun a => a.1.val env V + (pAlpha * pH / Ind).eval env • (z_1.val env V - a.2.val env V)) (by simpa using h15),
      vsum_add_zip (by rw [l1, l2]), e1, e2, l1]
    have : (k : ℝ) + 2 ≠ 0 := by positivity
    push_cast
    rw [smul_smul, mul_inv_cancel₀ this]
    simp
  · rw [vsum_of_forall₂ (l := i1.zip (x1.zip x15)) (f := fun a => a.1.val env V + (pBeta * pH / Ind).eval env • (z_1.val env V - a.2.1.val env V) +
      ((1 - pBeta) * pH / Ind).eval env • (z_15.val env V - a.2.2.val env V)) (by simpa using hi2),
      vsum_add_zip2 (by rw [l1, l2]) (by rw [l1, l3]), e1, e2, e3, l1]
    have : (k : ℝ) + 2 ≠ 0 := by positivity
    push_cast
    rw [smul_smul, smul_smul, mul_inv_cancel₀ this]
    simp

/-! ### `admm_consensus` and `admm_euler_consensus` -/

theorem coh_starStep (x_star : PE) (s : List PE × Option PE) (f : FE) : Coh (starStep x_star s f) :=
  .andThen (.oracle _ _) fun _ => .andThen (.addTo _ _) fun _ => .ret _

theorem coh_currentStep (s : List PE × Option PE) (i : ℕ) : Coh (currentStep s i) :=
  .andThen .initial fun _ => .andThen (.subFrom _ _) fun _ => .ret _

theorem coh_proxStep (R : ℚ) (e : PE) (s : List (PE × PE × EE) × Option PE) (a : PE × FE) : Coh (proxStep R e s a) :=
  .andThen (.prox _ _ _) fun _ => .andThen (.addTo _ _) fun _ => .ret _

theorem coh_admmEnergyStep (R Ind : ℚ) (x_star : PE) (s : EE × EE × EE) (a : (PE × PE) × (PE × PE × EE) × PE) :
    Coh (admmEnergyStep R Ind x_star s a) := .andThen (.ex _) fun _ => .andThen (.ex _) fun _ => .andThen (.ex _) fun _ => .ret _

theorem coh_eulerEnergyStep (R Ind : ℚ) (x_star : PE) (s : (Option EE × Option EE) × EE) (a : (PE × PE) × (PE × PE × EE) × PE) :
    Coh (eulerEnergyStep R Ind x_star s a) := .andThen (.addEx _ _) fun _ => .andThen (.addEx _ _) fun _ => .andThen (.ex _) fun _ => .ret _

theorem ens_currents (m : ℕ) : Ens SR env V (loop currentStep (List.range m) ([], none)) fun s =>
    s.1.length = m ∧ OptVal env V s.2 m (- vsum env V s.1) := by
  have := Ens.loop (SR := SR) (env := env) (V := V) coh_currentStep (fun j s => s.1.length = j ∧ OptVal env V s.2 j (- vsum env V s.1))
      (l := List.range m) (s := ([], none)) (j := 0) ⟨rfl, by simp [OptVal, vsum]⟩ (by
    rintro s a i - ⟨h1, h2⟩
    unfold currentStep
    refine Ens.bind .initial (.true _) fun y _ => Ens.bind (.subFrom _ _) (.subFrom h2 y) fun w hw => .pure ⟨by simp [h1], ?_⟩
    show w.val env V = _
    rw [hw, vsum_append]; abel)
  simpa using this

theorem ens_proxLoop (R : ℚ) (e : PE) (l : List (PE × FE)) : Ens SR env V (loop (proxStep R e) l ([], none)) fun s =>
    s.1.length = l.length ∧ OptVal env V s.2 l.length (vsum env V (s.1.map (·.1))) := by
  have := Ens.loop (SR := SR) (env := env) (V := V) (coh_proxStep R e) (fun j s => s.1.length = j ∧ OptVal env V s.2 j (vsum env V (s.1.map (·.1))))
      (l := l) (s := ([], none)) (j := 0) ⟨rfl, by simp [OptVal, vsum]⟩ (by
    rintro s a i - ⟨h1, h2⟩
    unfold proxStep
    refine Ens.bind (.prox _ _ _) (.true _) fun t _ => Ens.bind (.addTo _ _) (.addTo h2 t.1) fun w hw => .pure ⟨by simp [h1], ?_⟩
    show w.val env V = _
    rw [hw, List.map_append, List.map_singleton, vsum_append])
  simpa using this

theorem forall₂_zip_map {α β γ : Type} {g : β → γ} {R : α × γ → PE → Prop} {l : List α} {l' : List β} {bs : List PE}
    (h : List.Forall₂ (fun (a : α × β) b => R (a.1, g a.2) b) (l.zip l') bs) : List.Forall₂ R (l.zip (l'.map g)) bs := by
  rw [show l.zip (l'.map g) = (l.zip l').map (fun a => (a.1, g a.2)) by simp [List.zip_map_right]]
  exact List.forall₂_map_left_iff.2 h

/-- the currents of `admm_consensus` -/
theorem ens_admmConsensus (k : ℕ) (mu : ℚ) (L : Option ℚ) (R Ind : ℚ) : Ens SR env V (admmConsensus k mu L R Ind) fun c =>
    (c.i1.length = k + 2 ∧ c.i15.length = k + 2 ∧ c.i2.length = k + 2 ∧ c.x15.length = k + 2) ∧ vsum env V c.i1 = 0 ∧ vsum env V c.i2 = 0 ∧
      vsum env V c.i15 = (env "alpha" * env "h" / Ind * (k + 1)) • vsum env V c.x15 := by
  unfold admmConsensus
  refine Ens.bind (coh_defineSum _ _ _) (ens_defineSum _ _ _) ?_
  rintro ⟨fs, f⟩ hfs
  refine Ens.bind (.stationary _) (.true _) ?_
  rintro ⟨x_star, y_star, f_star⟩ -
  refine Ens.bind (.loop (coh_starStep _) _ _) (.true _) ?_
  rintro ⟨ys_star, s⟩ -
  refine Ens.bind (.equality _) (.true _) fun _ _ => ?_
  refine Ens.bind .initial (.true _) fun e_1 _ => ?_
  refine Ens.bind (.loop coh_currentStep _ _) (ens_currents _) ?_
  rintro ⟨iL, last⟩ ⟨h1, h3⟩
  dsimp only at h1 h3 hfs ⊢
  have e1 : vsum env V (iL ++ [last.getD (.reg 0)]) = 0 := by rw [vsum_append, h3.getD (by omega)]; abel
  have l1 : (iL ++ [last.getD (.reg 0)]).length = k + 2 := by simp [h1]
  generalize iL ++ [last.getD (.reg 0)] = i1 at e1 l1 ⊢
  refine Ens.bind (.loop (coh_proxStep _ _) _ _) (ens_proxLoop _ _ _) ?_
  rintro ⟨t15, e⟩ ⟨l15, h15⟩
  dsimp only at l15 h15 ⊢
  have hl : (i1.zip fs).length = k + 2 := by simp [l1, hfs]
  rw [hl] at l15 h15
  have he := h15.getD (by omega)
  refine Ens.bind (.mapB (fun _ => .pt _) _) (Ens.mapB (fun _ => .pt _) fun a _ => .pt _) fun i15 hi15 => ?_
  refine Ens.bind (.pt _) (.pt _) fun e_15 he15 => ?_
  have l5 : i15.length = k + 2 := by rw [← hi15.length_eq]; simp [l1, l15]
  refine Ens.bind (.loop (coh_proxStep _ _) _ _) (ens_proxLoop _ _ _) ?_
  rintro ⟨t2, e2⟩ ⟨l2, h2⟩
  dsimp only at l2 h2 ⊢
  have hl' : (i15.zip fs).length = k + 2 := by simp [l5, hfs]
  rw [hl'] at l2 h2
  have he2 := h2.getD (by omega)
  refine Ens.bind (.pt _) (.pt _) fun e_2 hee2 => ?_
  refine Ens.bind (.mapB (fun _ => .pt _) _) (Ens.mapB (fun _ => .pt _) fun a _ => .pt _) fun i2 hi2 => ?_
  refine Ens.bind (.ex _) (.true _) fun E_1 _ => Ens.bind (.ex _) (.true _) fun E_2 _ => Ens.bind (.ex _) (.true _) fun D _ => ?_
  refine Ens.bind (.loop (coh_admmEnergyStep _ _ _) _ _) (.true _) ?_
  rintro ⟨E_1', E_2', D'⟩ -
  have hk : (k : ℝ) + 2 ≠ 0 := by positivity
  refine Ens.bind (coh_finishMetric _ _ _) (.true _) fun en _ => .pure ⟨⟨l1, l5, ?_, by simp [l15]⟩, e1, ?_, ?_⟩
  · rw [← hi2.length_eq]; simp [l1, l15, l2]
  · rw [vsum_of_forall₂ (l := i1.zip ((t15.map (·.1)).zip (t2.map (·.1))))
      (f := fun a => a.1.val env V + (pBeta * pH / Ind).eval env • (e_15.val env V - a.2.1.val env V) +
        ((1 - pBeta) * pH / Ind).eval env • (e_2.val env V - a.2.2.val env V)) ?_,
      vsum_add_zip2 (by simp [l1, l15]) (by simp [l1, l2]), e1, he15, hee2, l1, PE.val_div', PE.val_div', he, he2]
    · push_cast
      rw [smul_smul, smul_smul, mul_inv_cancel₀ hk]
      simp
    · rw [show (t15.map (·.1)).zip (t2.map (·.1)) = (t15.zip t2).map fun a => (a.1.1, a.2.1) by simp [List.zip_map]]
      exact forall₂_zip_map (g := fun a : (PE × PE × EE) × (PE × PE × EE) => (a.1.1, a.2.1)) (by simpa using hi2)
  · rw [vsum_of_forall₂ (l := i1.zip (t15.map (·.1)))
      (f := fun a => a.1.val env V + (pAlpha * pH / Ind).eval env • ((e.getD (.reg 0)).val env V - a.2.val env V))
      (forall₂_zip_map (g := fun a : PE × PE × EE => a.1) (by simpa using hi15)), vsum_add_zip (by simp [l1, l15]), e1, he, l1]
    simp only [pAlpha, pH]
    push_cast
    simp
    module

/-- the currents of `admm_euler_consensus` -/
theorem ens_admmEulerConsensus (k : ℕ) (mu : ℚ) (L : Option ℚ) (R Ind : ℚ) : Ens SR env V (admmEulerConsensus k mu L R Ind) fun c =>
    (c.i1.length = k + 2 ∧ c.i2.length = k + 2) ∧ vsum env V c.i1 = 0 ∧ vsum env V c.i2 = 0 := by
  unfold admmEulerConsensus
  refine Ens.bind (coh_defineSum _ _ _) (ens_defineSum _ _ _) ?_
  rintro ⟨fs, f⟩ hfs
  refine Ens.bind (.stationary _) (.true _) ?_
  rintro ⟨x_star, y_star, f_star⟩ -
  refine Ens.bind (.loop (coh_starStep _) _ _) (.true _) ?_
  rintro ⟨ys_star, s⟩ -
  refine Ens.bind (.equality _) (.true _) fun _ _ => ?_
  refine Ens.bind (.loop coh_currentStep _ _) (ens_currents _) ?_
  rintro ⟨iL, last⟩ ⟨h1, h3⟩
  dsimp only at h1 h3 hfs ⊢
  have e1 : vsum env V (iL ++ [last.getD (.reg 0)]) = 0 := by rw [vsum_append, h3.getD (by omega)]; abel
  have l1 : (iL ++ [last.getD (.reg 0)]).length = k + 2 := by simp [h1]
  generalize iL ++ [last.getD (.reg 0)] = i1 at e1 l1 ⊢
  refine Ens.bind .initial (.true _) fun e_1 _ => ?_
  refine Ens.bind (.loop (coh_proxStep _ _) _ _) (ens_proxLoop _ _ _) ?_
  rintro ⟨t1, sx⟩ ⟨lt, ht⟩
  dsimp only at lt ht ⊢
  have hl : (i1.zip fs).length = k + 2 := by simp [l1, hfs]
  rw [hl] at lt ht
  have he := ht.getD (by omega)
  refine Ens.bind (.mapB (fun _ => .pt _) _) (Ens.mapB (fun _ => .pt _) fun a _ => .pt _) fun i2 hi2 => ?_
  refine Ens.bind (.pt _) (.pt _) fun sum hsum => ?_
  refine Ens.bind (.equality _) (.equality _) fun _ heq => ?_
  have heq' : e_1.val env V = sum.val env V := by
    have : ‖e_1.val env V - sum.val env V‖ ^ 2 = 0 := heq
    exact sub_eq_zero.1 (norm_eq_zero.1 (pow_eq_zero_iff (two_ne_zero) |>.1 this))
  refine Ens.bind (.ex _) (.true _) fun D _ => ?_
  refine Ens.bind (.loop (coh_eulerEnergyStep _ _ _) _ _) (.true _) ?_
  rintro ⟨⟨E_1', E_2'⟩, D'⟩ -
  have hk : (k : ℝ) + 2 ≠ 0 := by positivity
  refine Ens.bind (coh_finishMetric _ _ _) (.true _) fun en _ => .pure ⟨⟨l1, ?_⟩, e1, ?_⟩
  · rw [← hi2.length_eq]; simp [l1, lt]
  · rw [vsum_of_forall₂ (l := i1.zip (t1.map (·.1)))
      (f := fun a => a.1.val env V + (pH / Ind).eval env • (e_1.val env V - a.2.val env V))
      (forall₂_zip_map (g := fun a : PE × PE × EE => a.1) (by simpa using hi2)), vsum_add_zip (by simp [l1, lt]), e1, heq', hsum, PE.val_div', he, l1]
    push_cast
    rw [smul_smul, mul_inv_cancel₀ hk]
    simp

end Verif
