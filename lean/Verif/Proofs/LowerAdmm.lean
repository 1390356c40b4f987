import Verif.Proofs.LowerCircuits
import Verif.Props.CompleteDual
import Verif.Props.Kcl

/-!
# Smaller weights of the dissipation: the circuits with any number of functions
-/

namespace Verif
open Build
open scoped InnerProductSpace

section
variable {E : Type} [NormedAddCommGroup E] [InnerProductSpace ℝ E] {SR : ℕ → E → E → ℝ → Prop} {env : Name → ℝ} {V : Vals E}

theorem EnsM.map {α β : Type} {c : Build α} {g : α → β} {Q : Option ℕ → Prop} (h : EnsM SR env V c Q) : EnsM SR env V (c >>= fun a => pure (g a)) Q := by
  intro n nd m h1 h2
  have e : ((c >>= fun a => (pure (g a) : Build β)) n).2.2 = (c n).2.2 := List.append_nil _
  rw [e] at h1 h2 ⊢
  exact h n nd m h1 h2

theorem Ens.prox (x : PE) (f : FE) (g : Sym) : Ens SR env V (Build.prox x f g) fun r =>
    SumSample SR (f.val V) (r.1.val env V) (r.2.1.val env V) (r.2.2.val env V) ∧ r.1.val env V + g.eval env • r.2.1.val env V = x.val env V := by
  refine .andThen (.ptArg x) ((Ens.ptArg x).mono fun i hi => .andThen (.fnArg f) ((Ens.fnArg f).mono fun j hj n nd h _ => ?_))
  have := h.1
  simp only [Instr.Meets] at this
  rw [← hi, ← hj]
  exact this

/-- the gradients at the solution, and their sum -/
theorem ens_star (x : PE) (fs : List FE) : Ens SR env V (loop (starStep x) fs ([], none)) fun s =>
    (s.1.length = fs.length ∧ OptVal env V s.2 fs.length (vsum env V s.1)) ∧
      ∀ (i : ℕ) (f : FE) (y : PE), fs[i]? = some f → s.1[i]? = some y → ∃ v, SumSample SR (f.val V) (x.val env V) (y.val env V) v := by
  have := Ens.loop (SR := SR) (env := env) (V := V) (coh_starStep x) (fun j s => (s.1.length = j ∧ OptVal env V s.2 j (vsum env V s.1)) ∧
      ∀ (i : ℕ) (f : FE) (y : PE), fs[i]? = some f → s.1[i]? = some y → ∃ v, SumSample SR (f.val V) (x.val env V) (y.val env V) v) (l := fs)
      (s := ([], none)) (j := 0) ⟨⟨rfl, by simp [OptVal, vsum]⟩, by simp⟩ (by
    rintro s a i hi ⟨⟨h1, h2⟩, h5⟩
    simp only [zero_add] at *
    unfold starStep
    refine Ens.bind (.oracle _ _) (.oracle _ _) ?_
    rintro ⟨g, v⟩ hx
    refine Ens.bind (.addTo _ _) (.addTo h2 g) fun w hw => .pure ⟨⟨by simp [h1], ?_⟩, ?_⟩
    · show w.val env V = _
      rw [hw, vsum_append]
    · intro q a' x' ha' hx'
      simp only at hx'
      by_cases hq : q < i
      · rw [List.getElem?_append_left (by omega)] at hx'
        exact h5 q a' x' ha' hx'
      · have : q = i := by
          have := (List.getElem?_eq_some_iff.1 hx').1
          simp [h1] at this
          omega
        subst this
        rw [List.getElem?_append_right (by omega), h1] at hx'
        rw [hi] at ha'
        simp only [Nat.sub_self, List.getElem?_cons_zero, Option.some.injEq] at hx' ha'
        subst hx' ha'
        exact ⟨_, hx⟩)
  simpa using this

/-- the proximal steps, and the sum of their points -/
theorem ens_proxLoop' (R : ℚ) (e : PE) (l : List (PE × FE)) : Ens SR env V (loop (proxStep R e) l ([], none)) fun s =>
    (s.1.length = l.length ∧ OptVal env V s.2 l.length (vsum env V (s.1.map (·.1)))) ∧
      ∀ (i : ℕ) (a : PE × FE) (t : PE × PE × EE), l[i]? = some a → s.1[i]? = some t →
        SumSample SR (a.2.val V) (t.1.val env V) (t.2.1.val env V) (t.2.2.val env V) ∧
          t.1.val env V + (R : ℝ) • t.2.1.val env V = (R : ℝ) • a.1.val env V + e.val env V := by
  have := Ens.loop (SR := SR) (env := env) (V := V) (coh_proxStep R e) (fun j s => (s.1.length = j ∧ OptVal env V s.2 j (vsum env V (s.1.map (·.1)))) ∧
      ∀ (i : ℕ) (a : PE × FE) (t : PE × PE × EE), l[i]? = some a → s.1[i]? = some t →
        SumSample SR (a.2.val V) (t.1.val env V) (t.2.1.val env V) (t.2.2.val env V) ∧
          t.1.val env V + (R : ℝ) • t.2.1.val env V = (R : ℝ) • a.1.val env V + e.val env V)
      (l := l) (s := ([], none)) (j := 0) ⟨⟨rfl, by simp [OptVal, vsum]⟩, by simp⟩ (by
    rintro s a i hi ⟨⟨h1, h2⟩, h5⟩
    simp only [zero_add] at *
    unfold proxStep
    refine Ens.bind (.prox _ _ _) (.prox _ _ _) fun t ht => Ens.bind (.addTo _ _) (.addTo h2 t.1) fun w hw => .pure ⟨⟨by simp [h1], ?_⟩, ?_⟩
    · show w.val env V = _
      rw [hw, List.map_append, List.map_singleton, vsum_append]
    · intro q a' x' ha' hx'
      simp only at hx'
      by_cases hq : q < i
      · rw [List.getElem?_append_left (by omega)] at hx'
        exact h5 q a' x' ha' hx'
      · have : q = i := by
          have := (List.getElem?_eq_some_iff.1 hx').1
          simp [h1] at this
          omega
        subst this
        rw [List.getElem?_append_right (by omega), h1] at hx'
        rw [hi] at ha'
        simp only [Nat.sub_self, List.getElem?_cons_zero, Option.some.injEq] at hx' ha'
        subst hx' ha'
        refine ⟨ht.1, ?_⟩
        have := ht.2
        simpa using this)
  simpa using this

/-- the energies of `admm_consensus` -/
theorem ens_admmEnergy {R Ind : ℚ} {x_star : PE} {m : ℕ} {i1 i2 ys : List PE} {t : List (PE × PE × EE)} (l1 : i1.length = m) (l2 : i2.length = m)
    (l3 : t.length = m) (l4 : ys.length = m) (d : PE) (dt : PE × PE × EE) (E1 E2 D : EE) :
    Ens SR env V (loop (admmEnergyStep R Ind x_star) ((i1.zip i2).zip (t.zip ys)) (E1, E2, D)) fun s =>
      s.1.val env V = E1.val env V + ∑ i ∈ Finset.range m, Ind / 2 * ‖(i1.getD i d).val env V - (ys.getD i d).val env V‖ ^ 2 ∧
      s.2.1.val env V = E2.val env V + ∑ i ∈ Finset.range m, Ind / 2 * ‖(i2.getD i d).val env V - (ys.getD i d).val env V‖ ^ 2 ∧
      s.2.2.val env V = D.val env V + ∑ i ∈ Finset.range m, (env "rho" * R * ‖(t.getD i dt).2.1.val env V - (i2.getD i d).val env V‖ ^ 2 +
        env "eta" * ((t.getD i dt).2.2.val env V - ⟪(ys.getD i d).val env V, (t.getD i dt).1.val env V - x_star.val env V⟫_ℝ)) := by
  have hl : ((i1.zip i2).zip (t.zip ys)).length = m := by simp [l1, l2, l3, l4]
  have := Ens.loop (SR := SR) (env := env) (V := V) (coh_admmEnergyStep R Ind x_star) (fun j s =>
      s.1.val env V = E1.val env V + ∑ i ∈ Finset.range j, Ind / 2 * ‖(i1.getD i d).val env V - (ys.getD i d).val env V‖ ^ 2 ∧
      s.2.1.val env V = E2.val env V + ∑ i ∈ Finset.range j, Ind / 2 * ‖(i2.getD i d).val env V - (ys.getD i d).val env V‖ ^ 2 ∧
      s.2.2.val env V = D.val env V + ∑ i ∈ Finset.range j, (env "rho" * R * ‖(t.getD i dt).2.1.val env V - (i2.getD i d).val env V‖ ^ 2 +
        env "eta" * ((t.getD i dt).2.2.val env V - ⟪(ys.getD i d).val env V, (t.getD i dt).1.val env V - x_star.val env V⟫_ℝ)))
      (l := (i1.zip i2).zip (t.zip ys)) (s := (E1, E2, D)) (j := 0) ⟨by simp, by simp, by simp⟩ (by
    rintro s a i hi ⟨h1, h2, h3⟩
    simp only [zero_add] at *
    obtain ⟨ha, hb⟩ := zip_get hi
    obtain ⟨ha, ha'⟩ := zip_get ha
    obtain ⟨hb, hb'⟩ := zip_get hb
    have e1 : i1.getD i d = a.1.1 := by simp [List.getD, ha]
    have e2 : i2.getD i d = a.1.2 := by simp [List.getD, ha']
    have e3 : t.getD i dt = a.2.1 := by simp [List.getD, hb]
    have e4 : ys.getD i d = a.2.2 := by simp [List.getD, hb']
    unfold admmEnergyStep
    refine Ens.bind (.ex _) (.ex _) fun E1 g1 => Ens.bind (.ex _) (.ex _) fun E2 g2 => Ens.bind (.ex _) (.ex _) fun D g3 => .pure ⟨?_, ?_, ?_⟩
    · show E1.val env V = _
      rw [g1, Finset.sum_range_succ, e1, e4, ← add_assoc, ← h1]; simp
    · show E2.val env V = _
      rw [g2, Finset.sum_range_succ, e2, e4, ← add_assoc, ← h2]; simp
    · show D.val env V = _
      rw [g3, Finset.sum_range_succ, e2, e3, e4, ← add_assoc, ← h3]; simp)
  rw [hl, zero_add] at this
  exact this

/-- the energies of `admm_euler_consensus` -/
theorem ens_eulerEnergy {R Ind : ℚ} {x_star : PE} {m : ℕ} {i1 i2 ys : List PE} {t : List (PE × PE × EE)} (l1 : i1.length = m) (l2 : i2.length = m)
    (l3 : t.length = m) (l4 : ys.length = m) (d : PE) (dt : PE × PE × EE) (D : EE) :
    Ens SR env V (loop (eulerEnergyStep R Ind x_star) ((i1.zip i2).zip (t.zip ys)) ((none, none), D)) fun s =>
      OptExVal env V s.1.1 m (∑ i ∈ Finset.range m, Ind / 2 * ‖(i1.getD i d).val env V - (ys.getD i d).val env V‖ ^ 2) ∧
      OptExVal env V s.1.2 m (∑ i ∈ Finset.range m, Ind / 2 * ‖(i2.getD i d).val env V - (ys.getD i d).val env V‖ ^ 2) ∧
      s.2.val env V = D.val env V + ∑ i ∈ Finset.range m, (env "rho" * R * ‖(t.getD i dt).2.1.val env V - (i1.getD i d).val env V‖ ^ 2 +
        env "eta" * ((t.getD i dt).2.2.val env V - ⟪(ys.getD i d).val env V, (t.getD i dt).1.val env V - x_star.val env V⟫_ℝ)) := by
  have hl : ((i1.zip i2).zip (t.zip ys)).length = m := by simp [l1, l2, l3, l4]
  have := Ens.loop (SR := SR) (env := env) (V := V) (coh_eulerEnergyStep R Ind x_star) (fun j s =>
      OptExVal env V s.1.1 j (∑ i ∈ Finset.range j, Ind / 2 * ‖(i1.getD i d).val env V - (ys.getD i d).val env V‖ ^ 2) ∧
      OptExVal env V s.1.2 j (∑ i ∈ Finset.range j, Ind / 2 * ‖(i2.getD i d).val env V - (ys.getD i d).val env V‖ ^ 2) ∧
      s.2.val env V = D.val env V + ∑ i ∈ Finset.range j, (env "rho" * R * ‖(t.getD i dt).2.1.val env V - (i1.getD i d).val env V‖ ^ 2 +
        env "eta" * ((t.getD i dt).2.2.val env V - ⟪(ys.getD i d).val env V, (t.getD i dt).1.val env V - x_star.val env V⟫_ℝ)))
      (l := (i1.zip i2).zip (t.zip ys)) (s := ((none, none), D)) (j := 0) ⟨by simp [OptExVal], by simp [OptExVal], by simp⟩ (by
    rintro s a i hi ⟨h1, h2, h3⟩
    simp only [zero_add] at *
    obtain ⟨ha, hb⟩ := zip_get hi
    obtain ⟨ha, ha'⟩ := zip_get ha
    obtain ⟨hb, hb'⟩ := zip_get hb
    have e1 : i1.getD i d = a.1.1 := by simp [List.getD, ha]
    have e2 : i2.getD i d = a.1.2 := by simp [List.getD, ha']
    have e3 : t.getD i dt = a.2.1 := by simp [List.getD, hb]
    have e4 : ys.getD i d = a.2.2 := by simp [List.getD, hb']
    unfold eulerEnergyStep
    refine Ens.bind (.addEx _ _) (.addEx h1 _) fun E1 g1 => Ens.bind (.addEx _ _) (.addEx h2 _) fun E2 g2 => Ens.bind (.ex _) (.ex _) fun D g3 => .pure ⟨?_, ?_, ?_⟩
    · show E1.val env V = _
      rw [g1, Finset.sum_range_succ, e1, e4]; simp
    · show E2.val env V = _
      rw [g2, Finset.sum_range_succ, e2, e4]; simp
    · show D.val env V = _
      rw [g3, Finset.sum_range_succ, e1, e3, e4, ← add_assoc, ← h3]; simp)
  rw [hl, zero_add] at this
  exact this

end

/-! ### The functions of a builder -/

/-- the functions declared by a builder -/
def Declares {α : Type} (c : Build α) (l : List FnDecl) : Prop := ∀ n, decls (c n).2.2 = l

section
variable {α β σ : Type}

theorem decls_append (a b : List Instr) : decls (a ++ b) = decls a ++ decls b := by
  induction a with
  | nil => rfl
  | cons i a ih => rw [List.cons_append, decls_cons, ih, decls_cons i a, List.append_assoc]

theorem Declares.andThen {c : Build α} {f : α → Build β} {l l' : List FnDecl} (h : Declares c l) (h' : ∀ a, Declares (f a) l') : Declares (Build.andThen c f) (l ++ l') := by
  intro n
  simp only [Build.andThen]
  rw [decls_append, h n, h' _ _]

theorem Declares.bind {c : Build α} {f : α → Build β} {l l' : List FnDecl} (h : Declares c l) (h' : ∀ a, Declares (f a) l') : Declares (c >>= f) (l ++ l') := .andThen h h'

theorem Declares.none {c : Build α} {f : α → Build β} (h : Declares c []) (h' : ∀ a, Declares (f a) []) : Declares (c >>= f) [] := .andThen h h'
theorem Declares.none' {c : Build α} {f : α → Build β} (h : Declares c []) (h' : ∀ a, Declares (f a) []) : Declares (Build.andThen c f) [] := .andThen h h'

theorem Declares.ret (a : α) : Declares (Build.ret a) [] := fun _ => rfl
theorem Declares.pure (a : α) : Declares (pure a) [] := fun _ => rfl
theorem Declares.pt (e : PE) : Declares (Build.pt e) [] := fun _ => rfl
theorem Declares.ex (e : EE) : Declares (Build.ex e) [] := fun _ => rfl
theorem Declares.fn (f : FE) : Declares (Build.fn f) [] := fun _ => rfl
theorem Declares.initial : Declares Build.initial [] := fun _ => rfl
theorem Declares.define (mu : ℚ) (L : Option ℚ) : Declares (Build.define mu L) [defDecl mu L] := fun _ => rfl
theorem Declares.ptArg (e : PE) : Declares (Build.ptArg e) [] := by cases e <;> exact fun _ => rfl
theorem Declares.exArg (e : EE) : Declares (Build.exArg e) [] := by cases e <;> exact fun _ => rfl
theorem Declares.fnArg (e : FE) : Declares (Build.fnArg e) [] := by cases e <;> exact fun _ => rfl
theorem Declares.stationary (f : FE) : Declares (Build.stationary f) [] := .none' (.fnArg f) fun _ _ => rfl
theorem Declares.oracle (f : FE) (x : PE) : Declares (Build.oracle f x) [] := .none' (.fnArg f) fun _ => .none' (.ptArg x) fun _ _ => rfl
theorem Declares.prox (x : PE) (f : FE) (g : Sym) : Declares (Build.prox x f g) [] := .none' (.ptArg x) fun _ => .none' (.fnArg f) fun _ _ => rfl
theorem Declares.equality (e : EE) : Declares (Build.equality e) [] := .none' (.exArg e) fun _ _ => rfl
theorem Declares.metric (e : EE) : Declares (Build.metric e) [] := .none' (.exArg e) fun _ _ => rfl
theorem Declares.addTo (o : Option PE) (x : PE) : Declares (Build.addTo o x) [] := by cases o <;> exact fun _ => rfl
theorem Declares.subFrom (o : Option PE) (x : PE) : Declares (Build.subFrom o x) [] := by cases o <;> exact fun _ => rfl
theorem Declares.addEx (o : Option EE) (x : EE) : Declares (Build.addEx o x) [] := by cases o <;> exact fun _ => rfl
theorem Declares.finishMetric (a b c : EE) : Declares (Build.finishMetric a b c) [] := .none (.metric _) fun _ => .ret _

theorem Declares.loop {body : σ → α → Build σ} (h : ∀ s a, Declares (body s a) []) : ∀ (l : List α) (s : σ), Declares (Build.loop body l s) []
  | [], s => .ret s
  | a :: l, s => .none' (h s a) (Declares.loop h l)

theorem Declares.mapB {body : α → Build β} (h : ∀ a, Declares (body a) []) : ∀ l : List α, Declares (Build.mapB body l) []
  | [] => .ret _
  | a :: l => .none' (h a) fun _ => .none' (Declares.mapB h l) fun _ => .ret _

theorem Declares.loop' {body : σ → α → Build σ} {d : FnDecl} (h : ∀ s a, Declares (body s a) [d]) : ∀ (l : List α) (s : σ), Declares (Build.loop body l s) (List.replicate l.length d)
  | [], s => .ret s
  | a :: l, s => .andThen (h s a) (Declares.loop' h l)

theorem Declares.defineSum (mu : ℚ) (L : Option ℚ) (m : ℕ) : Declares (Build.defineSum mu L m) (List.replicate (m + 1) (defDecl mu L)) := by
  have := Declares.bind (.define mu L) fun f0 => Declares.loop' (d := defDecl mu L) (body := fun (s : List FE × FE) (_ : ℕ) => (do
      let f ← Build.define mu L
      let g ← Build.fn (s.2 + f)
      return (s.1 ++ [f], g))) (fun s _ => .bind (.define mu L) fun _ => .none (.fn _) fun _ => .pure _) (List.range m) ([f0], f0)
  simp only [List.length_range] at this
  exact this

theorem declares_starStep (x : PE) (s : List PE × Option PE) (f : FE) : Declares (starStep x s f) [] :=
  .none (.oracle _ _) fun _ => .none (.addTo _ _) fun _ => .pure _
theorem declares_currentStep (s : List PE × Option PE) (i : ℕ) : Declares (currentStep s i) [] := .none .initial fun _ => .none (.subFrom _ _) fun _ => .pure _
theorem declares_proxStep (R : ℚ) (e : PE) (s : List (PE × PE × EE) × Option PE) (a : PE × FE) : Declares (proxStep R e s a) [] :=
  .none (.prox _ _ _) fun _ => .none (.addTo _ _) fun _ => .pure _
theorem declares_admmEnergyStep (R Ind : ℚ) (x : PE) (s : EE × EE × EE) (a : (PE × PE) × (PE × PE × EE) × PE) : Declares (admmEnergyStep R Ind x s a) [] :=
  .none (.ex _) fun _ => .none (.ex _) fun _ => .none (.ex _) fun _ => .pure _
theorem declares_eulerEnergyStep (R Ind : ℚ) (x : PE) (s : (Option EE × Option EE) × EE) (a : (PE × PE) × (PE × PE × EE) × PE) :
    Declares (eulerEnergyStep R Ind x s a) [] :=
  .none (.addEx _ _) fun _ => .none (.addEx _ _) fun _ => .none (.ex _) fun _ => .pure _

theorem decls_admmConsensus (k : ℕ) (mu : ℚ) (L : Option ℚ) (R Ind : ℚ) : decls (admmConsensus k mu L R Ind).prog = List.replicate (k + 2) (defDecl mu L) := by
  have : Declares (admmConsensus k mu L R Ind) (List.replicate (k + 2) (defDecl mu L) ++ []) := by
    unfold admmConsensus
    exact .bind (.defineSum _ _ _) fun _ => .none (.stationary _) fun _ => .none (.loop (declares_starStep _) _ _) fun _ => .none (.equality _) fun _ =>
      .none .initial fun _ => .none (.loop declares_currentStep _ _) fun _ => .none (.loop (declares_proxStep _ _) _ _) fun _ => .none (.mapB (fun _ => .pt _) _) fun _ =>
      .none (.pt _) fun _ => .none (.loop (declares_proxStep _ _) _ _) fun _ => .none (.pt _) fun _ => .none (.mapB (fun _ => .pt _) _) fun _ =>
      .none (.ex _) fun _ => .none (.ex _) fun _ => .none (.ex _) fun _ => .none (.loop (declares_admmEnergyStep _ _ _) _ _) fun _ =>
      .none (.finishMetric _ _ _) fun _ => .pure _
  rw [List.append_nil] at this
  exact this _

theorem decls_admmEulerConsensus (k : ℕ) (mu : ℚ) (L : Option ℚ) (R Ind : ℚ) : decls (admmEulerConsensus k mu L R Ind).prog = List.replicate (k + 2) (defDecl mu L) := by
  have : Declares (admmEulerConsensus k mu L R Ind) (List.replicate (k + 2) (defDecl mu L) ++ []) := by
    unfold admmEulerConsensus
    exact .bind (.defineSum _ _ _) fun _ => .none (.stationary _) fun _ => .none (.loop (declares_starStep _) _ _) fun _ => .none (.equality _) fun _ =>
      .none (.loop declares_currentStep _ _) fun _ => .none .initial fun _ => .none (.loop (declares_proxStep _ _) _ _) fun _ => .none (.mapB (fun _ => .pt _) _) fun _ =>
      .none (.pt _) fun _ => .none (.equality _) fun _ => .none (.ex _) fun _ => .none (.loop (declares_eulerEnergyStep _ _ _) _ _) fun _ =>
      .none (.finishMetric _ _ _) fun _ => .pure _
  rw [List.append_nil] at this
  exact this _
end

/-! ### What the programs of the ADMM circuits say -/

/-- The energy inequality of `admm_consensus` with `n` functions, for all functions `f 0, …, f (n - 1)` of the class in every inner product space, every minimizer
`x_star` of their sum, with subgradients `y_star` of sum 0, every `e_1` and all currents `i_1` with sum 0: `x_1p5`, `x_2` are the proximal points of the two stages,
`e_1p5`, `e_2` their means, and `i_1p5`, `i_2` the currents of the step. As in the code, `i_1p5` uses the sum of the points `x_1p5`, not their mean. -/
def AdmmConsensusStep (n : ℕ) (mu : ℚ) (L : Option ℚ) (R Ind : ℚ) (p : Name → ℝ) : Prop :=
  ∀ (E : Type) [NormedAddCommGroup E] [InnerProductSpace ℝ E] (f : ℕ → CFun E), (∀ i < n, (defDecl mu L).Holds (f i)) →
    ∀ (x_star e_1 e_1p5 e_2 : E) (y_star i_1 x_1p5 g_1p5 i_1p5 x_2 g_2 i_2 : ℕ → E) (v_star v_1p5 v_2 : ℕ → ℝ),
      (∀ i < n, (f i).Sample x_star (y_star i) (v_star i)) → ∑ i ∈ Finset.range n, y_star i = 0 →
      ∑ i ∈ Finset.range n, i_1 i = 0 →
      (∀ i < n, (f i).Sample (x_1p5 i) (g_1p5 i) (v_1p5 i)) → (∀ i < n, x_1p5 i + (R : ℝ) • g_1p5 i = (R : ℝ) • i_1 i + e_1) →
      (∀ i < n, i_1p5 i = i_1 i + (p "alpha" * p "h" / Ind) • (∑ j ∈ Finset.range n, x_1p5 j - x_1p5 i)) →
      e_1p5 = (n : ℝ)⁻¹ • ∑ i ∈ Finset.range n, x_1p5 i →
      (∀ i < n, (f i).Sample (x_2 i) (g_2 i) (v_2 i)) → (∀ i < n, x_2 i + (R : ℝ) • g_2 i = (R : ℝ) • i_1p5 i + e_1p5) →
      e_2 = (n : ℝ)⁻¹ • ∑ i ∈ Finset.range n, x_2 i →
      (∀ i < n, i_2 i = i_1 i + (p "beta" * p "h" / Ind) • (e_1p5 - x_1p5 i) + ((1 - p "beta") * p "h" / Ind) • (e_2 - x_2 i)) →
      p "gamma" * ‖e_2 - x_star‖ ^ 2 + ∑ i ∈ Finset.range n, Ind / 2 * ‖i_2 i - y_star i‖ ^ 2 ≤
        p "gamma" * ‖e_1 - x_star‖ ^ 2 + ∑ i ∈ Finset.range n, Ind / 2 * ‖i_1 i - y_star i‖ ^ 2 -
        p "rho" * R * ∑ i ∈ Finset.range n, ‖g_2 i - i_2 i‖ ^ 2 -
        p "eta" * ∑ i ∈ Finset.range n, (v_2 i - v_star i - ⟪y_star i, x_2 i - x_star⟫_ℝ)

/-- The energy inequality of `admm_euler_consensus`: as `AdmmConsensusStep`, with one stage whose proximal points have the mean `e_1`. -/
def AdmmEulerConsensusStep (n : ℕ) (mu : ℚ) (L : Option ℚ) (R Ind : ℚ) (p : Name → ℝ) : Prop :=
  ∀ (E : Type) [NormedAddCommGroup E] [InnerProductSpace ℝ E] (f : ℕ → CFun E), (∀ i < n, (defDecl mu L).Holds (f i)) →
    ∀ (x_star e_1 : E) (y_star i_1 x_1 g_1 i_2 : ℕ → E) (v_star v_1 : ℕ → ℝ),
      (∀ i < n, (f i).Sample x_star (y_star i) (v_star i)) → ∑ i ∈ Finset.range n, y_star i = 0 →
      ∑ i ∈ Finset.range n, i_1 i = 0 →
      (∀ i < n, (f i).Sample (x_1 i) (g_1 i) (v_1 i)) → (∀ i < n, x_1 i + (R : ℝ) • g_1 i = (R : ℝ) • i_1 i + e_1) →
      (∀ i < n, i_2 i = i_1 i + (p "h" / Ind) • (e_1 - x_1 i)) →
      e_1 = (n : ℝ)⁻¹ • ∑ i ∈ Finset.range n, x_1 i →
      ∑ i ∈ Finset.range n, Ind / 2 * ‖i_2 i - y_star i‖ ^ 2 ≤
        ∑ i ∈ Finset.range n, Ind / 2 * ‖i_1 i - y_star i‖ ^ 2 -
        p "rho" * R * ∑ i ∈ Finset.range n, ‖g_1 i - i_1 i‖ ^ 2 -
        p "eta" * ∑ i ∈ Finset.range n, (v_1 i - v_star i - ⟪y_star i, x_1 i - x_star⟫_ℝ)

/-- functions of the class -/
theorem instance_replicate {E : Type} [NormedAddCommGroup E] [InnerProductSpace ℝ E] {prog : List Instr} {n : ℕ} {d : FnDecl} (h : decls prog = List.replicate n d)
    {f : ℕ → CFun E} (hf : ∀ i < n, d.Holds (f i)) : Instance prog f := by
  intro i d' hd
  rw [h, List.getElem?_replicate] at hd
  split at hd
  · rename_i hi
    injection hd with hd; subst hd; exact hf i hi
  · cases hd

/-- the metric of every run of `admm_consensus` is bounded by 0 iff the energy inequality holds for all functions and steps -/
theorem guaranteed_admmConsensus (k : ℕ) (mu : ℚ) (L : Option ℚ) (R Ind : ℚ) {p : Name → ℝ} :
    Guaranteed (admmConsensus k mu L R Ind).prog p ↔ AdmmConsensusStep (k + 2) mu L R Ind p := by
  have hs := safe_admmConsensus k mu L R Ind
  have hdecl := decls_admmConsensus k mu L R Ind
  constructor
  · intro hg E _ _ f hf x_star e_1 e_1p5 e_2 y_star i_1 x_1p5 g_1p5 i_1p5 x_2 g_2 i_2 v_star v_1p5 v_2 s0 s1 s2 s3 s4 s5 s6 s7 s8 s9 s10
    obtain ⟨rr, h1, -, h3, -, h4⟩ := realExec_of_can (fs := f) (env := p) (can_admmConsensus (SR := fun i => (f i).Sample) (D := defDecl mu L)
      (mu := mu) (L := L) (R := R) (Ind := Ind) (e15 := e_1p5) (e2 := e_2) rfl s0 s1 s2 s3 s4 rfl (by simpa using s5) (by rw [s6]; norm_num) s7 s8 (by rw [s9]; norm_num)
      (by simpa using s10))
    have := hg f (instance_replicate hdecl hf) rr h1 h3 _ h4
    simp only [Finset.sum_add_distrib, Finset.sum_sub_distrib, ← Finset.mul_sum] at this ⊢
    simp at this
    linarith
  · intro h E _ _ fs hi rr hx hcons v hv
    obtain ⟨h1, h2⟩ := meets_of_realExec hs hx
    have hf : ∀ i < k + 2, (defDecl mu L).Holds (fs i) := fun i hlt => hi i _ (by rw [hdecl, List.getElem?_replicate, if_pos hlt])
    rw [metric_of_realExec hs hx] at hv
    obtain ⟨e, he, hle⟩ : ∃ e, metricReg (admmConsensus k mu L R Ind).prog none = some e ∧ rr.vals.ex e ≤ 0 := by
      unfold admmConsensus at h1 h2 ⊢
      refine EnsM.start (Q := fun m => ∃ e, m = some e ∧ rr.vals.ex e ≤ 0) (coh_defineSum _ _ _) (ensN_defineSum _ _ _) ?_ h1 (by rw [← h2]; exact hcons)
      rintro ⟨l, f⟩ - ⟨⟨hl, hl'⟩, hf'⟩
      dsimp only at hl hl' hf' ⊢
      refine EnsM.bind (.stationary _) (.stationary _) ?_
      rintro ⟨xs, ys, vst⟩ ⟨b1, b2⟩
      dsimp only at b1 b2 ⊢
      rw [hf'] at b1
      obtain ⟨y0, w0, c1, c2, c3⟩ := samples_of_range b1
      refine EnsM.bind (.loop (coh_starStep _) _ _) (ens_star _ _) ?_
      rintro ⟨yst, ysum⟩ ⟨⟨l5, d1⟩, d2⟩
      dsimp only at l5 d1 d2 ⊢
      rw [hl] at l5 d1
      refine EnsM.bind (.equality _) (.equality _) fun _ heq => ?_
      have hys : vsum p rr.vals yst = 0 := by
        have : ‖(ysum.getD (.reg 0)).val p rr.vals - ys.val p rr.vals‖ ^ 2 = 0 := heq
        rw [d1.getD (by omega), b2, sub_zero] at this
        exact norm_eq_zero.1 (pow_eq_zero_iff two_ne_zero |>.1 this)
      refine EnsM.bind .initial (.true _) fun e_1 _ => ?_
      refine EnsM.bind (.loop coh_currentStep _ _) (ens_currents _) ?_
      rintro ⟨iL, last⟩ ⟨g1, g3⟩
      dsimp only at g1 g3 ⊢
      have e1 : vsum p rr.vals (iL ++ [last.getD (.reg 0)]) = 0 := by rw [vsum_append, g3.getD (by omega)]; abel
      have l1 : (iL ++ [last.getD (.reg 0)]).length = k + 2 := by simp [g1]
      generalize iL ++ [last.getD (.reg 0)] = i1 at e1 l1 ⊢
      refine EnsM.bind (.loop (coh_proxStep _ _) _ _) (ens_proxLoop' _ _ _) ?_
      rintro ⟨t15, s15⟩ ⟨⟨l15, h15⟩, q15⟩
      dsimp only at l15 h15 q15 ⊢
      rw [show (i1.zip l).length = k + 2 by simp [l1, hl]] at l15 h15
      have hs15 := h15.getD (by omega)
      refine EnsM.bind (.mapB (fun _ => .pt _) _) (Ens.mapB (fun _ => .pt _) fun a _ => .pt _) fun i15 hi15 => ?_
      have li15 : i15.length = k + 2 := by rw [← hi15.length_eq]; simp [l1, l15]
      refine EnsM.bind (.pt _) (.pt _) fun e_15 he15 => ?_
      refine EnsM.bind (.loop (coh_proxStep _ _) _ _) (ens_proxLoop' _ _ _) ?_
      rintro ⟨t2, s2⟩ ⟨⟨l2, h2⟩, q2⟩
      dsimp only at l2 h2 q2 ⊢
      rw [show (i15.zip l).length = k + 2 by simp [li15, hl]] at l2 h2
      have hs2 := h2.getD (by omega)
      refine EnsM.bind (.pt _) (.pt _) fun e_2 he2 => ?_
      refine EnsM.bind (.mapB (fun _ => .pt _) _) (Ens.mapB (fun _ => .pt _) fun a _ => .pt _) fun i2 hi2 => ?_
      have li2 : i2.length = k + 2 := by rw [← hi2.length_eq]; simp [l1, l15, l2]
      refine EnsM.bind (.ex _) (.ex _) fun E_1 r1 => EnsM.bind (.ex _) (.ex _) fun E_2 r2 => EnsM.bind (.ex _) (.ex _) fun D r3 => ?_
      refine EnsM.bind (.loop (coh_admmEnergyStep _ _ _) _ _) (ens_admmEnergy l1 li2 l2 l5 (.reg 0) (.reg 0, .reg 0, .reg 0) _ _ _) ?_
      rintro ⟨E_1', E_2', D'⟩ ⟨r1', r2', r3'⟩
      dsimp only at r1' r2' r3' ⊢
      simp at r1 r2 r3
      rw [r1] at r1'
      rw [r2] at r2'
      rw [r3] at r3'
      refine EnsM.map fun n nd m m1 m2 => ?_
      obtain ⟨e, m3, m4⟩ := EnsM.finishMetric E_1' E_2' D' n nd m m1 m2
      refine ⟨e, m3, ?_⟩
      have get : ∀ i < k + 2, ∃ e, l[i]? = some e ∧ e.val rr.vals = Finsupp.single i 1 := fun i hi => by
        obtain ⟨e, he⟩ : ∃ e, l[i]? = some e := ⟨_, List.getElem?_eq_getElem (by omega)⟩
        exact ⟨e, he, hl' i e he⟩
      have q5 : ∀ i < k + 2, ∃ v, (fs i).Sample (xs.val p rr.vals) ((yst.getD i (.reg 0)).val p rr.vals) v := by
        intro i hi
        obtain ⟨e, he, hev⟩ := get i hi
        obtain ⟨v, hv⟩ := d2 i e _ he (getD_some (.reg 0) l5 hi)
        exact ⟨v, smp_at hev hv⟩
      choose! vs q5 using q5
      have hvs : vst.val p rr.vals = ∑ i ∈ Finset.range (k + 2), vs i := by
        rw [c3]
        exact Finset.sum_congr rfl fun i hi => by
          have hi := Finset.mem_range.1 hi
          rw [← (q5 i hi).2.1, ← (c1 i hi).2.1]
      have a15 : ∀ i < k + 2, (fs i).Sample ((t15.getD i (.reg 0, .reg 0, .reg 0)).1.val p rr.vals) ((t15.getD i (.reg 0, .reg 0, .reg 0)).2.1.val p rr.vals)
          ((t15.getD i (.reg 0, .reg 0, .reg 0)).2.2.val p rr.vals) ∧ (t15.getD i (.reg 0, .reg 0, .reg 0)).1.val p rr.vals +
          (R : ℝ) • (t15.getD i (.reg 0, .reg 0, .reg 0)).2.1.val p rr.vals = (R : ℝ) • (i1.getD i (.reg 0)).val p rr.vals + e_1.val p rr.vals := by
        intro i hi
        obtain ⟨e, he, hev⟩ := get i hi
        obtain ⟨b1, b2⟩ := q15 i (_, e) _ (zip_some (getD_some (.reg 0) l1 hi) he) (getD_some (.reg 0, .reg 0, .reg 0) l15 hi)
        exact ⟨smp_at hev b1, b2⟩
      have a2 : ∀ i < k + 2, (fs i).Sample ((t2.getD i (.reg 0, .reg 0, .reg 0)).1.val p rr.vals) ((t2.getD i (.reg 0, .reg 0, .reg 0)).2.1.val p rr.vals)
          ((t2.getD i (.reg 0, .reg 0, .reg 0)).2.2.val p rr.vals) ∧ (t2.getD i (.reg 0, .reg 0, .reg 0)).1.val p rr.vals +
          (R : ℝ) • (t2.getD i (.reg 0, .reg 0, .reg 0)).2.1.val p rr.vals = (R : ℝ) • (i15.getD i (.reg 0)).val p rr.vals + e_15.val p rr.vals := by
        intro i hi
        obtain ⟨e, he, hev⟩ := get i hi
        obtain ⟨b1, b2⟩ := q2 i (_, e) _ (zip_some (getD_some (.reg 0) li15 hi) he) (getD_some (.reg 0, .reg 0, .reg 0) l2 hi)
        exact ⟨smp_at hev b1, b2⟩
      have sum3 : ∀ t : List (PE × PE × EE), t.length = k + 2 → vsum p rr.vals (t.map (·.1)) =
          ∑ i ∈ Finset.range (k + 2), (t.getD i (.reg 0, .reg 0, .reg 0)).1.val p rr.vals := by
        intro t ht
        rw [vsum_range (.reg 0), List.length_map, ht]
        refine Finset.sum_congr rfl fun i hi => ?_
        rw [List.getD_eq_getElem?_getD, List.getElem?_map, getD_some (.reg 0, .reg 0, .reg 0) ht (Finset.mem_range.1 hi)]
        rfl
      rw [sum3 _ l15] at hs15
      rw [sum3 _ l2] at hs2
      rw [vsum_range (.reg 0), l5] at hys
      rw [vsum_range (.reg 0), l1] at e1
      have := h E fs hf (xs.val p rr.vals) (e_1.val p rr.vals) (e_15.val p rr.vals) (e_2.val p rr.vals) (fun i => (yst.getD i (.reg 0)).val p rr.vals)
        (fun i => (i1.getD i (.reg 0)).val p rr.vals) (fun i => (t15.getD i (.reg 0, .reg 0, .reg 0)).1.val p rr.vals)
        (fun i => (t15.getD i (.reg 0, .reg 0, .reg 0)).2.1.val p rr.vals) (fun i => (i15.getD i (.reg 0)).val p rr.vals)
        (fun i => (t2.getD i (.reg 0, .reg 0, .reg 0)).1.val p rr.vals)
        (fun i => (t2.getD i (.reg 0, .reg 0, .reg 0)).2.1.val p rr.vals) (fun i => (i2.getD i (.reg 0)).val p rr.vals) vs
        (fun i => (t15.getD i (.reg 0, .reg 0, .reg 0)).2.2.val p rr.vals) (fun i => (t2.getD i (.reg 0, .reg 0, .reg 0)).2.2.val p rr.vals) q5 hys e1
        (fun i hi => (a15 i hi).1) (fun i hi => (a15 i hi).2)
        (fun i hi => by
          have := forall₂_get hi15 (zip_some (getD_some (.reg 0) l1 hi) (getD_some (.reg 0, .reg 0, .reg 0) l15 hi)) (getD_some (.reg 0) li15 hi)
          rw [this, ← hs15]
          simp)
        (by rw [he15, PE.val_div', hs15]; norm_num)
        (fun i hi => (a2 i hi).1) (fun i hi => (a2 i hi).2) (by rw [he2, PE.val_div', hs2]; norm_num)
        (fun i hi => by
          have := forall₂_get hi2 (zip_some (getD_some (.reg 0) l1 hi) (zip_some (getD_some (.reg 0, .reg 0, .reg 0) l15 hi)
            (getD_some (.reg 0, .reg 0, .reg 0) l2 hi))) (getD_some (.reg 0) li2 hi)
          simpa using this)
      rw [m4, r1', r2', r3', hvs]
      simp only [Finset.sum_add_distrib, Finset.sum_sub_distrib, ← Finset.mul_sum] at this ⊢
      linarith
    rw [he] at hv
    injection hv with hv
    rw [← hv]
    exact hle

/-- the metric of every run of `admm_euler_consensus` is bounded by 0 iff the energy inequality holds for all functions and steps -/
theorem guaranteed_admmEulerConsensus (k : ℕ) (mu : ℚ) (L : Option ℚ) (R Ind : ℚ) {p : Name → ℝ} :
    Guaranteed (admmEulerConsensus k mu L R Ind).prog p ↔ AdmmEulerConsensusStep (k + 2) mu L R Ind p := by
  have hs := safe_admmEulerConsensus k mu L R Ind
  have hdecl := decls_admmEulerConsensus k mu L R Ind
  constructor
  · intro hg E _ _ f hf x_star e_1 y_star i_1 x_1 g_1 i_2 v_star v_1 s0 s1 s2 s3 s4 s5 s6
    obtain ⟨rr, h1, -, h3, h4⟩ := realExec_of_can (fs := f) (env := p) (can_admmEulerConsensus (SR := fun i => (f i).Sample) (D := defDecl mu L)
      (mu := mu) (L := L) (R := R) (Ind := Ind) rfl s0 s1 s2 s3 s4 (by simpa using s5) (by rw [s6]; norm_num))
    have := hg f (instance_replicate hdecl hf) rr h1 h3 _ h4
    simp only [Finset.sum_add_distrib, Finset.sum_sub_distrib, ← Finset.mul_sum] at this ⊢
    simp at this
    linarith
  · intro h E _ _ fs hi rr hx hcons v hv
    obtain ⟨h1, h2⟩ := meets_of_realExec hs hx
    have hf : ∀ i < k + 2, (defDecl mu L).Holds (fs i) := fun i hlt => hi i _ (by rw [hdecl, List.getElem?_replicate, if_pos hlt])
    rw [metric_of_realExec hs hx] at hv
    obtain ⟨e, he, hle⟩ : ∃ e, metricReg (admmEulerConsensus k mu L R Ind).prog none = some e ∧ rr.vals.ex e ≤ 0 := by
      unfold admmEulerConsensus at h1 h2 ⊢
      refine EnsM.start (Q := fun m => ∃ e, m = some e ∧ rr.vals.ex e ≤ 0) (coh_defineSum _ _ _) (ensN_defineSum _ _ _) ?_ h1 (by rw [← h2]; exact hcons)
      rintro ⟨l, f⟩ - ⟨⟨hl, hl'⟩, hf'⟩
      dsimp only at hl hl' hf' ⊢
      refine EnsM.bind (.stationary _) (.stationary _) ?_
      rintro ⟨xs, ys, vst⟩ ⟨b1, b2⟩
      dsimp only at b1 b2 ⊢
      rw [hf'] at b1
      obtain ⟨y0, w0, c1, c2, c3⟩ := samples_of_range b1
      refine EnsM.bind (.loop (coh_starStep _) _ _) (ens_star _ _) ?_
      rintro ⟨yst, ysum⟩ ⟨⟨l5, d1⟩, d2⟩
      dsimp only at l5 d1 d2 ⊢
      rw [hl] at l5 d1
      refine EnsM.bind (.equality _) (.equality _) fun _ heq => ?_
      have hys : vsum p rr.vals yst = 0 := by
        have : ‖(ysum.getD (.reg 0)).val p rr.vals - ys.val p rr.vals‖ ^ 2 = 0 := heq
        rw [d1.getD (by omega), b2, sub_zero] at this
        exact norm_eq_zero.1 (pow_eq_zero_iff two_ne_zero |>.1 this)
      refine EnsM.bind (.loop coh_currentStep _ _) (ens_currents _) ?_
      rintro ⟨iL, last⟩ ⟨g1, g3⟩
      dsimp only at g1 g3 ⊢
      have e1 : vsum p rr.vals (iL ++ [last.getD (.reg 0)]) = 0 := by rw [vsum_append, g3.getD (by omega)]; abel
      have l1 : (iL ++ [last.getD (.reg 0)]).length = k + 2 := by simp [g1]
      generalize iL ++ [last.getD (.reg 0)] = i1 at e1 l1 ⊢
      refine EnsM.bind .initial (.true _) fun e_1 _ => ?_
      refine EnsM.bind (.loop (coh_proxStep _ _) _ _) (ens_proxLoop' _ _ _) ?_
      rintro ⟨t15, s15⟩ ⟨⟨l15, h15⟩, q15⟩
      dsimp only at l15 h15 q15 ⊢
      rw [show (i1.zip l).length = k + 2 by simp [l1, hl]] at l15 h15
      have hs15 := h15.getD (by omega)
      refine EnsM.bind (.mapB (fun _ => .pt _) _) (Ens.mapB (fun _ => .pt _) fun a _ => .pt _) fun i2 hi2 => ?_
      have li2 : i2.length = k + 2 := by rw [← hi2.length_eq]; simp [l1, l15]
      refine EnsM.bind (.pt _) (.pt _) fun sx hsx => ?_
      refine EnsM.bind (.equality _) (.equality _) fun _ heq => ?_
      have heq' : e_1.val p rr.vals = sx.val p rr.vals := by
        have : ‖e_1.val p rr.vals - sx.val p rr.vals‖ ^ 2 = 0 := heq
        exact sub_eq_zero.1 (norm_eq_zero.1 (pow_eq_zero_iff two_ne_zero |>.1 this))
      refine EnsM.bind (.ex _) (.ex _) fun D r3 => ?_
      refine EnsM.bind (.loop (coh_eulerEnergyStep _ _ _) _ _) (ens_eulerEnergy l1 li2 l15 l5 (.reg 0) (.reg 0, .reg 0, .reg 0) _) ?_
      rintro ⟨⟨E_1', E_2'⟩, D'⟩ ⟨r1', r2', r3'⟩
      dsimp only at r1' r2' r3' ⊢
      simp at r3
      rw [r3] at r3'
      refine EnsM.map fun n nd m m1 m2 => ?_
      obtain ⟨e, m3, m4⟩ := EnsM.finishMetric (E_1'.getD (.reg 0)) (E_2'.getD (.reg 0)) D' n nd m m1 m2
      refine ⟨e, m3, ?_⟩
      have get : ∀ i < k + 2, ∃ e, l[i]? = some e ∧ e.val rr.vals = Finsupp.single i 1 := fun i hi => by
        obtain ⟨e, he⟩ : ∃ e, l[i]? = some e := ⟨_, List.getElem?_eq_getElem (by omega)⟩
        exact ⟨e, he, hl' i e he⟩
      have q5 : ∀ i < k + 2, ∃ v, (fs i).Sample (xs.val p rr.vals) ((yst.getD i (.reg 0)).val p rr.vals) v := by
        intro i hi
        obtain ⟨e, he, hev⟩ := get i hi
        obtain ⟨v, hv⟩ := d2 i e _ he (getD_some (.reg 0) l5 hi)
        exact ⟨v, smp_at hev hv⟩
      choose! vs q5 using q5
      have hvs : vst.val p rr.vals = ∑ i ∈ Finset.range (k + 2), vs i := by
        rw [c3]
        exact Finset.sum_congr rfl fun i hi => by
          have hi := Finset.mem_range.1 hi
          rw [← (q5 i hi).2.1, ← (c1 i hi).2.1]
      have a15 : ∀ i < k + 2, (fs i).Sample ((t15.getD i (.reg 0, .reg 0, .reg 0)).1.val p rr.vals) ((t15.getD i (.reg 0, .reg 0, .reg 0)).2.1.val p rr.vals)
          ((t15.getD i (.reg 0, .reg 0, .reg 0)).2.2.val p rr.vals) ∧ (t15.getD i (.reg 0, .reg 0, .reg 0)).1.val p rr.vals +
          (R : ℝ) • (t15.getD i (.reg 0, .reg 0, .reg 0)).2.1.val p rr.vals = (R : ℝ) • (i1.getD i (.reg 0)).val p rr.vals + e_1.val p rr.vals := by
        intro i hi
        obtain ⟨e, he, hev⟩ := get i hi
        obtain ⟨b1, b2⟩ := q15 i (_, e) _ (zip_some (getD_some (.reg 0) l1 hi) he) (getD_some (.reg 0, .reg 0, .reg 0) l15 hi)
        exact ⟨smp_at hev b1, b2⟩
      have sum3 : vsum p rr.vals (t15.map (·.1)) = ∑ i ∈ Finset.range (k + 2), (t15.getD i (.reg 0, .reg 0, .reg 0)).1.val p rr.vals := by
        rw [vsum_range (.reg 0), List.length_map, l15]
        refine Finset.sum_congr rfl fun i hi => ?_
        rw [List.getD_eq_getElem?_getD, List.getElem?_map, getD_some (.reg 0, .reg 0, .reg 0) l15 (Finset.mem_range.1 hi)]
        rfl
      rw [sum3] at hs15
      rw [vsum_range (.reg 0), l5] at hys
      rw [vsum_range (.reg 0), l1] at e1
      have := h E fs hf (xs.val p rr.vals) (e_1.val p rr.vals) (fun i => (yst.getD i (.reg 0)).val p rr.vals)
        (fun i => (i1.getD i (.reg 0)).val p rr.vals) (fun i => (t15.getD i (.reg 0, .reg 0, .reg 0)).1.val p rr.vals)
        (fun i => (t15.getD i (.reg 0, .reg 0, .reg 0)).2.1.val p rr.vals) (fun i => (i2.getD i (.reg 0)).val p rr.vals) vs
        (fun i => (t15.getD i (.reg 0, .reg 0, .reg 0)).2.2.val p rr.vals) q5 hys e1 (fun i hi => (a15 i hi).1) (fun i hi => (a15 i hi).2)
        (fun i hi => by
          have := forall₂_get hi2 (zip_some (getD_some (.reg 0) l1 hi) (getD_some (.reg 0, .reg 0, .reg 0) l15 hi)) (getD_some (.reg 0) li2 hi)
          simpa using this)
        (by rw [heq', hsx, PE.val_div', hs15]; norm_num)
      rw [m4, r1'.getD (by omega), r2'.getD (by omega), r3', hvs]
      simp only [Finset.sum_add_distrib, Finset.sum_sub_distrib, ← Finset.mul_sum] at this ⊢
      linarith
    rw [he] at hv
    injection hv with hv
    rw [← hv]
    exact hle

/-! ### Smaller weights -/

theorem lower_admmConsensus (k : ℕ) (mu : ℚ) (L : Option ℚ) (R Ind : ℚ) (hR : 0 < R) : Lowers (admmConsensus k mu L R Ind).prog := by
  intro p q hpq he hr hg
  rw [guaranteed_admmConsensus] at hg ⊢
  intro E _ _ f hf x_star e_1 e_1p5 e_2 y_star i_1 x_1p5 g_1p5 i_1p5 x_2 g_2 i_2 v_star v_1p5 v_2 s0 s1 s2 s3 s4 s5 s6 s7 s8 s9 s10
  have ha := hpq "alpha" (by decide) (by decide)
  have hb := hpq "beta" (by decide) (by decide)
  have hh := hpq "h" (by decide) (by decide)
  have hc := hpq "gamma" (by decide) (by decide)
  have := hg E f hf x_star e_1 e_1p5 e_2 y_star i_1 x_1p5 g_1p5 i_1p5 x_2 g_2 i_2 v_star v_1p5 v_2 s0 s1 s2 s3 s4 (by rwa [ha, hh]) s6 s7 s8 s9 (by rwa [hb, hh])
  rw [hc] at this
  have n1 : 0 ≤ ∑ i ∈ Finset.range (k + 2), (v_2 i - v_star i - ⟪y_star i, x_2 i - x_star⟫_ℝ) :=
    Finset.sum_nonneg fun i hi => (s0 i (Finset.mem_range.1 hi)).le (s7 i (Finset.mem_range.1 hi))
  have n2 : 0 ≤ ∑ i ∈ Finset.range (k + 2), ‖g_2 i - i_2 i‖ ^ 2 := Finset.sum_nonneg fun i _ => by positivity
  have hR' : (0 : ℝ) ≤ R := by exact_mod_cast hR.le
  have := lower_two he (mul_le_mul_of_nonneg_right hr hR') n1 n2
  linarith

theorem lower_admmEulerConsensus (k : ℕ) (mu : ℚ) (L : Option ℚ) (R Ind : ℚ) (hR : 0 < R) : Lowers (admmEulerConsensus k mu L R Ind).prog := by
  intro p q hpq he hr hg
  rw [guaranteed_admmEulerConsensus] at hg ⊢
  intro E _ _ f hf x_star e_1 y_star i_1 x_1 g_1 i_2 v_star v_1 s0 s1 s2 s3 s4 s5 s6
  have hh := hpq "h" (by decide) (by decide)
  have := hg E f hf x_star e_1 y_star i_1 x_1 g_1 i_2 v_star v_1 s0 s1 s2 s3 s4 (by rwa [hh]) s6
  have n1 : 0 ≤ ∑ i ∈ Finset.range (k + 2), (v_1 i - v_star i - ⟪y_star i, x_1 i - x_star⟫_ℝ) :=
    Finset.sum_nonneg fun i hi => (s0 i (Finset.mem_range.1 hi)).le (s3 i (Finset.mem_range.1 hi))
  have n2 : 0 ≤ ∑ i ∈ Finset.range (k + 2), ‖g_1 i - i_1 i‖ ^ 2 := Finset.sum_nonneg fun i _ => by positivity
  have hR' : (0 : ℝ) ≤ R := by exact_mod_cast hR.le
  have := lower_two he (mul_le_mul_of_nonneg_right hr hR') n1 n2
  linarith

theorem lower_dualDecomposition (k : ℕ) {mu L : ℚ} (Ind : ℚ) (hmu : 0 ≤ mu) (hL : mu < L) : Lowers (dualDecomposition k mu (some L) Ind).prog := by
  intro p q hpq he hr hg
  rw [guaranteed_dualDecomposition k Ind hmu hL] at hg ⊢
  intro E _ _ f hf x_star z_1 z_1p5 y_star i_1 x_1 i_1p5 x_1p5 i_2 v_star v_1 v_1p5 s0 s1 s2 s3 s4 s5 s6 s7 s8
  have ha := hpq "alpha" (by decide) (by decide)
  have hb := hpq "beta" (by decide) (by decide)
  have hh := hpq "h" (by decide) (by decide)
  have := hg E f hf x_star z_1 z_1p5 y_star i_1 x_1 i_1p5 x_1p5 i_2 v_star v_1 v_1p5 s0 s1 s2 s3 s4 (by rwa [ha, hh]) s6 s7 (by rwa [hb, hh])
  have n1 : 0 ≤ ∑ i ∈ Finset.range (k + 2), ⟪x_1 i - x_star, i_1 i - y_star i⟫_ℝ :=
    Finset.sum_nonneg fun i hi => (s0 i (Finset.mem_range.1 hi)).mono (s3 i (Finset.mem_range.1 hi))
  have := mul_le_mul_of_nonneg_right he n1
  linarith

theorem lower_primalDecomposition (k : ℕ) {mu : ℚ} {L : Option ℚ} (Cap : ℚ) (hok : (defDecl mu L).Ok) : Lowers (primalDecomposition k mu L Cap).prog := by
  intro p q hpq he hr hg
  rw [guaranteed_primalDecomposition k Cap hok] at hg ⊢
  intro E _ _ f hf x_star z_1 z_1p5 z_2 y_star y_1 y_1p5 v_star v_1 v_1p5 s0 s1 s2 s3 s4 s5
  have ha := hpq "alpha" (by decide) (by decide)
  have hb := hpq "beta" (by decide) (by decide)
  have hh := hpq "h" (by decide) (by decide)
  have := hg E f hf x_star z_1 z_1p5 z_2 y_star y_1 y_1p5 v_star v_1 v_1p5 s0 s1 s2 (by rwa [ha, hh]) s4 (by rwa [hb, hh])
  have n1 : 0 ≤ ⟪z_1 - x_star, ∑ i ∈ Finset.range (k + 1), y_1 i⟫_ℝ := by
    have : 0 ≤ ∑ i ∈ Finset.range (k + 1), ⟪z_1 - x_star, y_1 i - y_star i⟫_ℝ :=
      Finset.sum_nonneg fun i hi => (s0 i (Finset.mem_range.1 hi)).mono (s2 i (Finset.mem_range.1 hi))
    rwa [← inner_sum, Finset.sum_sub_distrib, s1, sub_zero] at this
  have := mul_le_mul_of_nonneg_right he n1
  linarith

end Verif
