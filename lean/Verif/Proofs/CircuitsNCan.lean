import Verif.Proofs.CanLogic
import Verif.Proofs.CircuitFeasible

/-! # Executions of the circuits with any number of functions -/

namespace Verif
open Build
open scoped InnerProductSpace

/-- facts about an earlier state hold later -/
syntax "up " term " at" (ppSpace colGt ident)+ : tactic
macro_rules
  | `(tactic| up $p at $h:ident) => `(tactic| replace $h := ($h).mono $p)
  | `(tactic| up $p at $h:ident $hs:ident*) => `(tactic| (replace $h := ($h).mono $p; up $p at $hs:ident*))

variable {E : Type} [NormedAddCommGroup E] [InnerProductSpace ℝ E] {α : Type}

theorem zip_get {α β : Type} {l : List α} {l' : List β} {i : ℕ} {a : α × β} (h : (l.zip l')[i]? = some a) : l[i]? = some a.1 ∧ l'[i]? = some a.2 :=
  List.getElem?_zip_eq_some.1 h

theorem lt_of_get {α : Type} {l : List α} {i m : ℕ} {a : α} (h : l[i]? = some a) (hl : l.length = m) : i < m := by
  obtain ⟨h, _⟩ := List.getElem?_eq_some_iff.1 h
  omega

theorem dropLast_get {α : Type} {l : List α} {i : ℕ} {a : α} (h : l.dropLast[i]? = some a) : l[i]? = some a := by
  rw [List.getElem?_dropLast] at h
  split at h
  · exact h
  · cases h

theorem getLastD_get {α : Type} {l : List α} {m : ℕ} (hl : l.length = m + 1) (d : α) : l[m]? = some (l.getLastD d) := by
  have : l ≠ [] := by rintro rfl; simp at hl
  rw [List.getLastD_eq_getLast?, List.getLast?_eq_getElem?, hl]
  simp [hl]

theorem mem_decls {prog : List Instr} {d : FnDecl} (h : d ∈ decls prog) : .declare d ∈ prog := by
  induction prog with
  | nil => cases h
  | cons i is ih =>
    cases i with
    | declare d' =>
      rcases List.mem_cons.1 h with rfl | h
      · exact List.mem_cons_self
      · exact List.mem_cons_of_mem _ (ih h)
    | _ => exact List.mem_cons_of_mem _ (ih h)

theorem sumSample_range {SR : ℕ → E → E → ℝ → Prop} {x : E} {y : ℕ → E} {v : ℕ → ℝ} : ∀ {m : ℕ}, (∀ i < m, SR i x (y i) (v i)) →
    SumSample SR (∑ i ∈ Finset.range m, Finsupp.single i 1) x (∑ i ∈ Finset.range m, y i) (∑ i ∈ Finset.range m, v i)
  | 0, _ => ⟨fun _ => 0, fun _ => 0, by simp, by simp, by simp⟩
  | m + 1, h => by
    rw [Finset.sum_range_succ, Finset.sum_range_succ, Finset.sum_range_succ]
    refine (sumSample_range fun i hi => h i (by omega)).addSingle (h m (by omega)) ?_
    rw [Finsupp.finset_sum_apply]
    apply Finset.sum_eq_zero
    intro i hi
    rw [Finset.mem_range] at hi
    rw [Finsupp.single_apply, if_neg (by omega)]

/-- a feasible point bounds the metric of every execution -/
theorem le_of_can {C : CAS} (hC : C.Lawful) {D : FnDecl} (hok : D.Ok) {c : Build α} {p : Name → ℝ} (hp : IpoptFeasible C c.prog stdParams p)
    {fs : ℕ → CFun E} (hf : ∀ i, D.Holds (fs i)) {v : ℝ}
    (h : Can {n | n ∈ stdParams} D (fun k => (fs k).Sample) p c (RRegs.empty E) fun _ rr => rr.metric = some v) : v ≤ 0 := by
  obtain ⟨rr, h1, -, -, h4, h5, h6⟩ := h
  have hd : ∀ d ∈ decls c.prog, d = D := fun d hd => (h4 _ (mem_decls hd)).2 d rfl
  have hg : Guaranteed c.prog p := guaranteed_of_feasible hC (fun i hi => (h4 i hi).1) (by decide) (by decide)
    (fun d h => by rw [hd d h]; exact hok) hp
  exact hg fs (fun k d hk => by rw [hd d (List.mem_of_getElem? hk)]; exact hf k) rr h1 (h5 (by simp [RRegs.empty, RRegs.ConsHold])) v h6

theorem realExec_of_can {W : Set Name} {D : FnDecl} {fs : ℕ → CFun E} {env : Name → ℝ} {c : Build α} {Q : α → RRegs E → Prop}
    (h : Can W D (fun k => (fs k).Sample) env c (RRegs.empty E) Q) :
    ∃ rr, RealExec fs env c.prog rr ∧ (∀ d ∈ decls c.prog, d = D) ∧ rr.ConsHold ∧ Q c.result rr := by
  obtain ⟨rr, h1, -, -, h4, h5, h6⟩ := h
  exact ⟨rr, h1, fun d hd => (h4 _ (mem_decls hd)).2 d rfl, h5 (by simp [RRegs.empty, RRegs.ConsHold]), h6⟩

theorem safe_of_can {W : Set Name} {D : FnDecl} {SR : ℕ → E → E → ℝ → Prop} {env : Name → ℝ} {c : Build α} {Q : α → RRegs E → Prop}
    (h : Can W D SR env c (RRegs.empty E) Q) : SafeProg c.prog ⟨0, 0, 0⟩ = true := by
  obtain ⟨rr, -, -, h3, -, -, -⟩ := h
  exact h3

variable {D : FnDecl} {SR : ℕ → E → E → ℝ → Prop} {env : Name → ℝ} {rr : RRegs E}

set_option quotPrecheck false in
local notation "W0" => {n | n ∈ stdParams}

/-- `dual_decomposition` -/
theorem can_dualDecomposition {k : ℕ} {mu : ℚ} {L : Option ℚ} {Ind : ℚ} (hD : defDecl mu L = D) {x_star z1 z15 : E} {ys i1 x1 i15 x15 i2 : ℕ → E}
    {vs v1 v15 : ℕ → ℝ} (hs : ∀ i < k + 2, SR i x_star (ys i) (vs i)) (hys : ∑ i ∈ Finset.range (k + 2), ys i = 0)
    (hi1 : ∑ i ∈ Finset.range (k + 2), i1 i = 0) (h1 : ∀ i < k + 2, SR i (x1 i) (i1 i) (v1 i))
    (hz1 : z1 = (((k : ℚ) + 2 : ℚ) : ℝ)⁻¹ • ∑ i ∈ Finset.range (k + 2), x1 i)
    (hi15 : ∀ i < k + 2, i15 i = i1 i + (pAlpha * pH / Ind).eval env • (z1 - x1 i))
    (h15 : ∀ i < k + 2, SR i (x15 i) (i15 i) (v15 i))
    (hz15 : z15 = (((k : ℚ) + 2 : ℚ) : ℝ)⁻¹ • ∑ i ∈ Finset.range (k + 2), x15 i)
    (hi2 : ∀ i < k + 2, i2 i = i1 i + (pBeta * pH / Ind).eval env • (z1 - x1 i) + ((1 - pBeta) * pH / Ind).eval env • (z15 - x15 i)) :
    Can W0 D SR env (dualDecomposition k mu L Ind) (RRegs.empty E) fun _ rr => rr.metric =
      some (∑ i ∈ Finset.range (k + 2), ((Ind / 2 : ℚ) : ℝ) * ‖i2 i - ys i‖ ^ 2 - (∑ i ∈ Finset.range (k + 2), ((Ind / 2 : ℚ) : ℝ) * ‖i1 i - ys i‖ ^ 2 -
        ∑ i ∈ Finset.range (k + 2), pEta.eval env * ⟪x1 i - x_star, i1 i - ys i⟫_ℝ)) := by
  have hk : ((k : ℚ) + 2) ≠ 0 := by positivity
  unfold dualDecomposition
  refine Can.bind (.defineSum hD _ rfl) ?_
  rintro ⟨fs, f⟩ r1 - ⟨hfs, hf⟩
  dsimp only at hfs hf ⊢
  refine Can.bind (.stationary hf (by rw [← hys]; exact sumSample_range hs)) ?_
  rintro ⟨xs, y, fst⟩ r2 p ⟨hxs, -, -⟩
  up p at hfs
  dsimp only at hxs ⊢
  refine Can.bind (Can.mapB (v := ys) fun f i r hi p => ?_) ?_
  · refine Can.bind (.oracle ((hfs.2 i f hi).mono p) (hxs.mono p) (smp (hs i (lt_of_get hi hfs.1)))) fun r _ _ h => .pure h.1
  intro ystar r3 p hy
  rw [hfs.1] at hy
  up p at hfs hxs
  refine Can.bind (Can.loop (fun j s r => IsPts W0 env r s.1.1 j i1 ∧ IsOpt W0 env r s.1.2 j (- ∑ i ∈ Finset.range j, i1 i) ∧
    IsPts W0 env r s.2.1 j x1 ∧ IsOpt W0 env r s.2.2 j (∑ i ∈ Finset.range j, x1 i)) (j := 0)
    ⟨.nil, by simp [IsOpt], .nil, by simp [IsOpt]⟩ ?_) ?_
  · rintro s f i r hi p ⟨a1, a2, a3, a4⟩
    have hi := dropLast_get hi
    have hl := lt_of_get hi hfs.1
    up p at hfs
    simp only [zero_add] at *
    unfold dualInitStep
    refine Can.bind (.initial (i1 i)) fun yi r p b1 => ?_
    up p at hfs a1 a2 a3 a4
    refine Can.bind (.subFrom a2 b1) fun last r p b2 => ?_
    up p at hfs a1 a3 a4 b1
    refine Can.bind (.conj (hfs.2 i f hi) b1 (smp (h1 i hl))) fun xi r p b3 => ?_
    up p at hfs a1 a3 a4 b1 b2
    refine Can.bind (.addTo a4 b3) fun z r p b4 => ?_
    up p at a1 a3 b1 b2 b3
    refine .pure ⟨a1.append b1, ?_, a3.append b3, ?_⟩
    · rw [Finset.sum_range_succ, neg_add, ← sub_eq_add_neg]; exact b2
    · rw [Finset.sum_range_succ]; exact b4
  rintro ⟨⟨iL, last⟩, xs', z⟩ r4 p ⟨a1, a2, a3, a4⟩
  have hl : fs.length = k + 2 := hfs.1
  simp only [List.length_dropLast, hl, zero_add, show k + 2 - 1 = k + 1 by omega] at a1 a2 a3 a4 ⊢
  up p at hfs hxs hy
  have hlast : IsPt W0 env r4 (last.getD (.reg 0)) (i1 (k + 1)) := by
    have := a2.getD (by omega)
    rw [Finset.sum_range_succ] at hi1
    rwa [neg_eq_of_add_eq_zero_right hi1] at this
  refine Can.bind (.conj (hfs.2 (k + 1) _ (getLastD_get hl _)) hlast (smp (h1 (k + 1) (by omega)))) fun xl r5 p b1 => ?_
  up p at hfs hxs hy a1 a3 a4 hlast
  refine Can.bind (.addTo a4 b1) fun z' r6 p b2 => ?_
  up p at hfs hxs hy a1 a3 hlast b1
  rw [← Finset.sum_range_succ] at b2
  refine Can.bind (.pt (b2.div hk)) fun z_1 r7 p b3 => ?_
  up p at hfs hxs hy a1 a3 hlast b1
  rw [← hz1] at b3
  have c1 := a1.append hlast
  have c3 := a3.append b1
  generalize iL ++ [last.getD (.reg 0)] = i_1 at *
  generalize xs' ++ [xl] = x_1 at *
  clear a1 a3 hlast b1 b2
  have e1 : (i_1.zip x_1).length = k + 2 := by simp [c1.1, c3.1]
  refine Can.bind (Can.mapB (v := i15) fun a i r hi p => ?_) ?_
  · have hl := lt_of_get hi e1
    obtain ⟨ha, hb⟩ := zip_get hi
    rw [hi15 i hl]
    exact .pt (((c1.2 i _ ha).add (.smul (by simp [stdParams]) (b3.sub (c3.2 i _ hb)))).mono p)
  intro i_15 r8 p d1
  rw [e1] at d1
  up p at hfs hxs hy c1 c3 b3
  have e2 : (i_15.zip fs).length = k + 2 := by simp [d1.1, hfs.1]
  refine Can.bind (Can.loop (fun j s r => IsPts W0 env r s.1 j x15 ∧ IsOpt W0 env r s.2 j (∑ i ∈ Finset.range j, x15 i)) (j := 0)
    ⟨.nil, by simp [IsOpt]⟩ ?_) ?_
  · rintro s a i r hi p ⟨a1, a2⟩
    have hl := lt_of_get hi e2
    obtain ⟨ha, hb⟩ := zip_get hi
    up p at hfs d1
    simp only [zero_add] at *
    unfold conjStep
    refine Can.bind (.conj (hfs.2 i _ hb) (d1.2 i _ ha) (smp (h15 i hl))) fun xi r p b3 => ?_
    up p at a1 a2
    refine Can.bind (.addTo a2 b3) fun z r p b4 => ?_
    up p at a1 b3
    refine .pure ⟨a1.append b3, ?_⟩
    rw [Finset.sum_range_succ]; exact b4
  rintro ⟨x_15, z⟩ r9 p ⟨d2, d3⟩
  rw [e2, zero_add] at d2 d3
  up p at hxs hy c1 c3 b3
  dsimp only at d2 d3 ⊢
  refine Can.bind (.pt ((d3.getD (by omega)).div hk)) fun z_15 r10 p d4 => ?_
  rw [← hz15] at d4
  up p at hxs hy c1 c3 b3 d2
  have e3 : (i_1.zip (x_1.zip x_15)).length = k + 2 := by simp [c1.1, c3.1, d2.1]
  refine Can.bind (Can.mapB (v := i2) fun a i r hi p => ?_) ?_
  · have hl := lt_of_get hi e3
    obtain ⟨ha, hb⟩ := zip_get hi
    obtain ⟨hb, hc⟩ := zip_get hb
    rw [hi2 i hl]
    exact .pt ((((c1.2 i _ ha).add (.smul (by simp [stdParams]) (b3.sub (c3.2 i _ hb)))).add
      (.smul (by simp [stdParams]) (d4.sub (d2.2 i _ hc)))).mono p)
  intro i_2 r11 p g1
  rw [e3] at g1
  up p at hxs hy c1 c3
  have e4 : ((i_1.zip i_2).zip (x_1.zip ystar)).length = k + 2 := by simp [c1.1, c3.1, g1.1, hy.1]
  refine Can.bind (Can.loop (fun j s r => IsOptEx W0 env r s.1 j (∑ i ∈ Finset.range j, ((Ind / 2 : ℚ) : ℝ) * ‖i1 i - ys i‖ ^ 2) ∧
    IsOptEx W0 env r s.2.1 j (∑ i ∈ Finset.range j, ((Ind / 2 : ℚ) : ℝ) * ‖i2 i - ys i‖ ^ 2) ∧
    IsOptEx W0 env r s.2.2 j (∑ i ∈ Finset.range j, pEta.eval env * ⟪x1 i - x_star, i1 i - ys i⟫_ℝ)) (j := 0)
    ⟨by simp [IsOptEx], by simp [IsOptEx], by simp [IsOptEx]⟩ ?_) ?_
  · rintro s a i r hi p ⟨a1, a2, a3⟩
    obtain ⟨ha, hb⟩ := zip_get hi
    obtain ⟨ha, ha'⟩ := zip_get ha
    obtain ⟨hb, hb'⟩ := zip_get hb
    up p at hxs hy c1 c3 g1
    simp only [zero_add] at *
    unfold dualEnergyStep
    refine Can.bind (.addEx a1 (((c1.2 i _ ha).sub (hy.2 i _ hb')).sq.qmul)) fun E1 r p b1 => ?_
    up p at hxs hy c1 c3 g1 a2 a3
    refine Can.bind (.addEx a2 (((g1.2 i _ ha').sub (hy.2 i _ hb')).sq.qmul)) fun E1 r p b2 => ?_
    up p at hxs hy c1 c3 g1 a3 b1
    refine Can.bind (.addEx a3 (((((c3.2 i _ hb).sub hxs)).inner ((c1.2 i _ ha).sub (hy.2 i _ hb'))).smul (by simp [stdParams]))) fun E1 r p b3 => ?_
    up p at b1 b2
    refine .pure ⟨?_, ?_, ?_⟩ <;> rw [Finset.sum_range_succ] <;> assumption
  rintro ⟨E1, E2, D1⟩ r12 p ⟨a1, a2, a3⟩
  rw [e4, zero_add] at a1 a2 a3
  exact Can.bind (.finishMetric (a1.getD (by omega)) (a2.getD (by omega)) (a3.getD (by omega))) fun _ _ _ h => .pure h

/-! ### Loops of the other circuits -/

/-- the triplets returned by proximal steps -/
def IsTrips (W : Set Name) (env : Name → ℝ) (rr : RRegs E) (l : List (PE × PE × EE)) (m : ℕ) (x g : ℕ → E) (v : ℕ → ℝ) : Prop :=
  l.length = m ∧ ∀ i t, l[i]? = some t → IsPt W env rr t.1 (x i) ∧ IsPt W env rr t.2.1 (g i) ∧ IsEx W env rr t.2.2 (v i)

theorem IsTrips.mono {W : Set Name} {rr' : RRegs E} {l : List (PE × PE × EE)} {m : ℕ} {x g : ℕ → E} {v : ℕ → ℝ} (h : IsTrips W env rr l m x g v)
    (hp : rr.Prefix rr') : IsTrips W env rr' l m x g v :=
  ⟨h.1, fun i t ht => ⟨(h.2 i t ht).1.mono hp, (h.2 i t ht).2.1.mono hp, (h.2 i t ht).2.2.mono hp⟩⟩

theorem IsTrips.append {W : Set Name} {l : List (PE × PE × EE)} {m : ℕ} {x g : ℕ → E} {v : ℕ → ℝ} (h : IsTrips W env rr l m x g v)
    {t : PE × PE × EE} (ht : IsPt W env rr t.1 (x m) ∧ IsPt W env rr t.2.1 (g m) ∧ IsEx W env rr t.2.2 (v m)) :
    IsTrips W env rr (l ++ [t]) (m + 1) x g v := by
  refine ⟨by simp [h.1], fun i a ha => ?_⟩
  by_cases hi : i < l.length
  · rw [List.getElem?_append_left hi] at ha; exact h.2 i a ha
  · obtain ⟨hl, _⟩ := List.getElem?_eq_some_iff.1 ha
    have hl : i = l.length := by simp at hl; omega
    subst hl
    simp at ha
    subst ha
    rwa [h.1]

theorem can_gradSum {f : List FE} {m : ℕ} {x : PE} {u : E} {y : ℕ → E} {v : ℕ → ℝ} (hF : IsFns rr f m fun i => Finsupp.single i 1)
    (hx : IsPt W0 env rr x u) (hs : ∀ i < m, SR i u (y i) (v i)) :
    Can W0 D SR env (loop (gradSumStep x) f none) rr fun s r => IsOpt W0 env r s m (∑ i ∈ Finset.range m, y i) := by
  have hl : f.length = m := hF.1
  refine (Can.loop (fun j s r => IsOpt W0 env r s j (∑ i ∈ Finset.range j, y i)) (j := 0) (by simp [IsOpt]) ?_).mono fun s r p h => by
    rw [hl, zero_add] at h; exact h
  intro s a i r hi p h
  up p at hF hx
  simp only [zero_add] at *
  unfold gradSumStep
  refine Can.bind (.oracle (hF.2 i _ hi) hx (smp (hs i (lt_of_get hi hl)))) ?_
  rintro ⟨g, w⟩ r p ⟨b1, -⟩
  up p at h
  refine Can.bind (.addTo h b1) fun z r p b2 => .pure ?_
  rw [Finset.sum_range_succ]; exact b2

theorem can_star {f : List FE} {m : ℕ} {x : PE} {u : E} {y : ℕ → E} {v : ℕ → ℝ} (hF : IsFns rr f m fun i => Finsupp.single i 1)
    (hx : IsPt W0 env rr x u) (hs : ∀ i < m, SR i u (y i) (v i)) :
    Can W0 D SR env (loop (starStep x) f ([], none)) rr fun s r => IsPts W0 env r s.1 m y ∧ IsOpt W0 env r s.2 m (∑ i ∈ Finset.range m, y i) := by
  have hl : f.length = m := hF.1
  refine (Can.loop (fun j s r => IsPts W0 env r s.1 j y ∧ IsOpt W0 env r s.2 j (∑ i ∈ Finset.range j, y i)) (j := 0)
    ⟨.nil, by simp [IsOpt]⟩ ?_).mono fun s r p h => by rw [hl, zero_add] at h; exact h
  rintro s a i r hi p ⟨h, h'⟩
  up p at hF hx
  simp only [zero_add] at *
  unfold starStep
  refine Can.bind (.oracle (hF.2 i _ hi) hx (smp (hs i (lt_of_get hi hl)))) ?_
  rintro ⟨g, w⟩ r p ⟨b1, -⟩
  up p at h h'
  refine Can.bind (.addTo h' b1) fun z r p b2 => ?_
  up p at h b1
  refine .pure ⟨h.append b1, ?_⟩
  rw [Finset.sum_range_succ]; exact b2

theorem can_currents {m : ℕ} (y : ℕ → E) :
    Can W0 D SR env (loop currentStep (List.range m) ([], none)) rr fun s r =>
      IsPts W0 env r s.1 m y ∧ IsOpt W0 env r s.2 m (- ∑ i ∈ Finset.range m, y i) := by
  refine (Can.loop (fun j s r => IsPts W0 env r s.1 j y ∧ IsOpt W0 env r s.2 j (- ∑ i ∈ Finset.range j, y i)) (j := 0)
    ⟨.nil, by simp [IsOpt]⟩ ?_).mono fun s r p h => by rw [List.length_range, zero_add] at h; exact h
  rintro s a i r hi p ⟨h, h'⟩
  simp only [zero_add] at *
  unfold currentStep
  refine Can.bind (.initial (y i)) fun yi r p b1 => ?_
  up p at h h'
  refine Can.bind (.subFrom h' b1) fun z r p b2 => ?_
  up p at h b1
  refine .pure ⟨h.append b1, ?_⟩
  rw [Finset.sum_range_succ, neg_add, ← sub_eq_add_neg]; exact b2

theorem can_proxLoop {l : List PE} {f : List FE} {m : ℕ} {e : PE} {R : ℚ} {u : E} {c x g : ℕ → E} {v : ℕ → ℝ}
    (hI : IsPts W0 env rr l m c) (hF : IsFns rr f m fun i => Finsupp.single i 1) (he : IsPt W0 env rr e u)
    (hs : ∀ i < m, SR i (x i) (g i) (v i)) (hx : ∀ i < m, x i + (R : ℝ) • g i = (R : ℝ) • c i + u) :
    Can W0 D SR env (loop (proxStep R e) (l.zip f) ([], none)) rr fun s r =>
      IsTrips W0 env r s.1 m x g v ∧ IsOpt W0 env r s.2 m (∑ i ∈ Finset.range m, x i) := by
  have hl : (l.zip f).length = m := by simp [hI.1, hF.1]
  refine (Can.loop (fun j s r => IsTrips W0 env r s.1 j x g v ∧ IsOpt W0 env r s.2 j (∑ i ∈ Finset.range j, x i)) (j := 0)
    ⟨⟨rfl, by simp⟩, by simp [IsOpt]⟩ ?_).mono fun s r p h => by rw [hl, zero_add] at h; exact h
  rintro s a i r hi p ⟨h, h'⟩
  obtain ⟨ha, hb⟩ := zip_get hi
  have hlt := lt_of_get hi hl
  up p at hF hI he
  simp only [zero_add] at *
  unfold proxStep
  refine Can.bind (.prox (hF.2 i _ hb) ((hI.2 i _ ha).qmul.add he) (by simp) (smp (hs i hlt)) (by simpa using hx i hlt)) ?_
  rintro t r p ⟨b1, b2, b3⟩
  up p at h h'
  refine Can.bind (.addTo h' b1) fun z r p b4 => ?_
  up p at h b1 b2 b3
  refine .pure ⟨h.append ⟨b1, b2, b3⟩, ?_⟩
  rw [Finset.sum_range_succ]; exact b4

/-- `primal_decomposition` -/
theorem can_primalDecomposition {k : ℕ} {mu : ℚ} {L : Option ℚ} {Cap : ℚ} (hD : defDecl mu L = D) {x_star z1 z15 z2 : E} {ys y1 y15 : ℕ → E}
    {vs v1 v15 : ℕ → ℝ} (hs : ∀ i < k + 1, SR i x_star (ys i) (vs i)) (hys : ∑ i ∈ Finset.range (k + 1), ys i = 0)
    (h1 : ∀ i < k + 1, SR i z1 (y1 i) (v1 i))
    (hz15 : z15 = z1 - (pAlpha * pH / Cap).eval env • ∑ i ∈ Finset.range (k + 1), y1 i)
    (h15 : ∀ i < k + 1, SR i z15 (y15 i) (v15 i))
    (hz2 : z2 = z1 - (pBeta * pH / Cap).eval env • ∑ i ∈ Finset.range (k + 1), y1 i -
      ((1 - pBeta) * pH / Cap).eval env • ∑ i ∈ Finset.range (k + 1), y15 i) :
    Can W0 D SR env (primalDecomposition k mu L Cap) (RRegs.empty E) fun _ rr => rr.metric =
      some (((Cap / 2 : ℚ) : ℝ) * ‖z2 - x_star‖ ^ 2 - (((Cap / 2 : ℚ) : ℝ) * ‖z1 - x_star‖ ^ 2 -
        pEta.eval env * ⟪z1 - x_star, ∑ i ∈ Finset.range (k + 1), y1 i - 0⟫_ℝ)) := by
  unfold primalDecomposition
  refine Can.bind (.defineSum hD _ rfl) ?_
  rintro ⟨fs, f⟩ r1 - ⟨hfs, hf⟩
  dsimp only at hfs hf ⊢
  refine Can.bind (.stationary hf (by rw [← hys]; exact sumSample_range hs)) ?_
  rintro ⟨xs, y, fst⟩ r2 p ⟨hxs, hy, -⟩
  dsimp only at hxs hy ⊢
  up p at hfs
  refine Can.bind (.initial z1) fun z_1 r p a1 => ?_
  up p at hfs hxs hy
  refine Can.bind (can_gradSum hfs a1 h1) fun s r p a2 => ?_
  replace a2 := a2.getD (by omega)
  up p at hfs hxs hy a1
  generalize s.getD (.reg 0) = sum1 at *
  refine Can.bind (.pt (a1.sub (a2.smul (by simp [stdParams])))) fun z_15 r p a3 => ?_
  rw [← hz15] at a3
  up p at hfs hxs hy a1 a2
  refine Can.bind (can_gradSum hfs a3 h15) fun s r p a4 => ?_
  replace a4 := a4.getD (by omega)
  up p at hfs hxs hy a1 a2
  generalize s.getD (.reg 0) = sum15 at *
  refine Can.bind (.pt ((a1.sub (a2.smul (by simp [stdParams]))).sub (a4.smul (by simp [stdParams])))) fun z_2 r p a5 => ?_
  rw [← hz2] at a5
  up p at hxs hy a1 a2
  refine Can.bind (.ex ((a1.sub hxs).sq.qmul)) fun E_1 r p b1 => ?_
  up p at hxs hy a1 a2 a5
  refine Can.bind (.ex ((a5.sub hxs).sq.qmul)) fun E_2 r p b2 => ?_
  up p at hxs hy a1 a2 b1
  refine Can.bind (.ex (((a1.sub hxs).inner (a2.sub hy)).smul (by simp [stdParams]))) fun D_1 r p b3 => ?_
  up p at b1 b2
  exact .finishMetric b1 b2 b3

/-- `admm_consensus` -/
theorem can_admmConsensus {k : ℕ} {mu : ℚ} {L : Option ℚ} {R Ind : ℚ} (hD : defDecl mu L = D) {x_star e1 s15 e15 e2 : E}
    {ys i1 x15 g15 i15 x2 g2 i2 : ℕ → E} {vs v15 v2 : ℕ → ℝ} (hs : ∀ i < k + 2, SR i x_star (ys i) (vs i))
    (hys : ∑ i ∈ Finset.range (k + 2), ys i = 0) (hi1 : ∑ i ∈ Finset.range (k + 2), i1 i = 0)
    (h15 : ∀ i < k + 2, SR i (x15 i) (g15 i) (v15 i)) (hp15 : ∀ i < k + 2, x15 i + (R : ℝ) • g15 i = (R : ℝ) • i1 i + e1)
    (hs15 : s15 = ∑ i ∈ Finset.range (k + 2), x15 i)
    (hi15 : ∀ i < k + 2, i15 i = i1 i + (pAlpha * pH / Ind).eval env • (s15 - x15 i))
    (he15 : e15 = (((k : ℚ) + 2 : ℚ) : ℝ)⁻¹ • s15)
    (h2 : ∀ i < k + 2, SR i (x2 i) (g2 i) (v2 i)) (hp2 : ∀ i < k + 2, x2 i + (R : ℝ) • g2 i = (R : ℝ) • i15 i + e15)
    (he2 : e2 = (((k : ℚ) + 2 : ℚ) : ℝ)⁻¹ • ∑ i ∈ Finset.range (k + 2), x2 i)
    (hi2 : ∀ i < k + 2, i2 i = i1 i + (pBeta * pH / Ind).eval env • (e15 - x15 i) + ((1 - pBeta) * pH / Ind).eval env • (e2 - x2 i)) :
    Can W0 D SR env (admmConsensus k mu L R Ind) (RRegs.empty E) fun c rr => IsPts W0 env rr c.i15 (k + 2) i15 ∧ rr.metric =
      some (pGamma.eval env * ‖e2 - x_star‖ ^ 2 + ∑ i ∈ Finset.range (k + 2), ((Ind / 2 : ℚ) : ℝ) * ‖i2 i - ys i‖ ^ 2 -
        (pGamma.eval env * ‖e1 - x_star‖ ^ 2 + ∑ i ∈ Finset.range (k + 2), ((Ind / 2 : ℚ) : ℝ) * ‖i1 i - ys i‖ ^ 2 -
        ((-pEta).eval env * (∑ i ∈ Finset.range (k + 2), vs i) + ∑ i ∈ Finset.range (k + 2), ((@HMul.hMul Sym ℚ Sym _ pRho R).eval env * ‖g2 i - i2 i‖ ^ 2 +
          pEta.eval env * (v2 i - ⟪ys i, x2 i - x_star⟫_ℝ))))) := by
  have hk : ((k : ℚ) + 2) ≠ 0 := by positivity
  unfold admmConsensus
  refine Can.bind (.defineSum hD _ rfl) ?_
  rintro ⟨fs, f⟩ r1 - ⟨hfs, hf⟩
  dsimp only at hfs hf ⊢
  refine Can.bind (.stationary hf (by rw [← hys]; exact sumSample_range hs)) ?_
  rintro ⟨xs, y, fst⟩ r2 p ⟨hxs, hy, hv⟩
  dsimp only at hxs hy hv ⊢
  up p at hfs
  refine Can.bind (can_star hfs hxs hs) ?_
  rintro ⟨ystar, s⟩ r3 p ⟨hyst, hsum⟩
  dsimp only at hyst hsum ⊢
  up p at hfs hxs hy hv
  refine Can.bind (.equality (show IsEx _ _ _ _ 0 from ?_)) fun _ r p _ => ?_
  · have := ((hsum.getD (by omega)).sub hy).sq
    rwa [hys, sub_zero, norm_zero, zero_pow two_ne_zero] at this
  up p at hfs hxs hv hyst
  refine Can.bind (.initial e1) fun e_1 r p a1 => ?_
  up p at hfs hxs hv hyst
  refine Can.bind (can_currents i1) ?_
  rintro ⟨iL, last⟩ r p ⟨c1, c2⟩
  dsimp only at c1 c2 ⊢
  up p at hfs hxs hv hyst a1
  replace c2 := c2.getD (by omega)
  rw [Finset.sum_range_succ] at hi1
  rw [neg_eq_of_add_eq_zero_right hi1] at c2
  replace c1 := c1.append c2
  generalize iL ++ [last.getD (.reg 0)] = i_1 at *
  clear c2
  refine Can.bind (can_proxLoop c1 hfs a1 h15 hp15) ?_
  rintro ⟨t15, s⟩ r p ⟨d1, d2⟩
  dsimp only at d1 d2 ⊢
  replace d2 := d2.getD (by omega)
  rw [← hs15] at d2
  up p at hfs hxs hv hyst a1 c1
  generalize s.getD (.reg 0) = s_15 at *
  have e1' : (i_1.zip t15).length = k + 2 := by simp [c1.1, d1.1]
  refine Can.bind (Can.mapB (v := i15) fun a i r hi p => ?_) ?_
  · have hl := lt_of_get hi e1'
    obtain ⟨ha, hb⟩ := zip_get hi
    rw [hi15 i hl]
    exact .pt (((c1.2 i _ ha).add (.smul (by simp [stdParams]) (d2.sub (d1.2 i _ hb).1))).mono p)
  intro i_15 r p d3
  rw [e1'] at d3
  up p at hfs hxs hv hyst a1 c1 d1 d2
  refine Can.bind (.pt (d2.div hk)) fun e_15 r p d4 => ?_
  rw [← he15] at d4
  up p at hfs hxs hv hyst a1 c1 d1 d3
  refine Can.bind (can_proxLoop d3 hfs d4 h2 hp2) ?_
  rintro ⟨t2, s⟩ r p ⟨g1, g2'⟩
  dsimp only at g1 g2' ⊢
  replace g2' := g2'.getD (by omega)
  up p at d3 hxs hv hyst a1 c1 d1 d4
  refine Can.bind (.pt (g2'.div hk)) fun e_2 r p g3 => ?_
  rw [← he2] at g3
  up p at d3 hxs hv hyst a1 c1 d1 d4 g1
  have e3 : (i_1.zip (t15.zip t2)).length = k + 2 := by simp [c1.1, d1.1, g1.1]
  refine Can.bind (Can.mapB (v := i2) fun a i r hi p => ?_) ?_
  · have hl := lt_of_get hi e3
    obtain ⟨ha, hb⟩ := zip_get hi
    obtain ⟨hb, hc⟩ := zip_get hb
    rw [hi2 i hl]
    exact .pt ((((c1.2 i _ ha).add (.smul (by simp [stdParams]) (d4.sub (d1.2 i _ hb).1))).add
      (.smul (by simp [stdParams]) (g3.sub (g1.2 i _ hc).1))).mono p)
  intro i_2 r p g4
  rw [e3] at g4
  up p at d3 hxs hv hyst a1 c1 g1 g3
  refine Can.bind (.ex ((a1.sub hxs).sq.smul (by simp [stdParams]))) fun E_1 r p b1 => ?_
  up p at d3 hxs hv hyst c1 g1 g3 g4
  refine Can.bind (.ex ((g3.sub hxs).sq.smul (by simp [stdParams]))) fun E_2 r p b2 => ?_
  up p at d3 hxs hv hyst c1 g1 g4 b1
  refine Can.bind (.ex (hv.smul (by simp [stdParams]))) fun D_1 r p b3 => ?_
  up p at d3 hxs hyst c1 g1 g4 b1 b2
  have e4 : ((i_1.zip i_2).zip (t2.zip ystar)).length = k + 2 := by simp [c1.1, g4.1, g1.1, hyst.1]
  refine Can.bind (Can.loop (fun j s r => IsEx W0 env r s.1 (pGamma.eval env * ‖e1 - x_star‖ ^ 2 + ∑ i ∈ Finset.range j, ((Ind / 2 : ℚ) : ℝ) * ‖i1 i - ys i‖ ^ 2) ∧
    IsEx W0 env r s.2.1 (pGamma.eval env * ‖e2 - x_star‖ ^ 2 + ∑ i ∈ Finset.range j, ((Ind / 2 : ℚ) : ℝ) * ‖i2 i - ys i‖ ^ 2) ∧
    IsEx W0 env r s.2.2 ((-pEta).eval env * (∑ i ∈ Finset.range (k + 2), vs i) + ∑ i ∈ Finset.range j, ((@HMul.hMul Sym ℚ Sym _ pRho R).eval env * ‖g2 i - i2 i‖ ^ 2 +
          pEta.eval env * (v2 i - ⟪ys i, x2 i - x_star⟫_ℝ)))) (j := 0)
    ⟨by simpa using b1, by simpa using b2, by simpa using b3⟩ ?_) ?_
  · rintro s a i r hi p ⟨a1, a2, a3⟩
    obtain ⟨ha, hb⟩ := zip_get hi
    obtain ⟨ha, ha'⟩ := zip_get ha
    obtain ⟨hb, hb'⟩ := zip_get hb
    up p at hxs hyst c1 g1 g4
    simp only [zero_add] at *
    unfold admmEnergyStep
    refine Can.bind (.ex (a1.add (((c1.2 i _ ha).sub (hyst.2 i _ hb')).sq.qmul))) fun E1 r p b1 => ?_
    up p at hxs hyst c1 g1 g4 a2 a3
    refine Can.bind (.ex (a2.add (((g4.2 i _ ha').sub (hyst.2 i _ hb')).sq.qmul))) fun E1 r p b2 => ?_
    up p at hxs hyst c1 g1 g4 a3 b1
    have ht := g1.2 i _ hb
    refine Can.bind (.ex (a3.add (((ht.2.1.sub (g4.2 i _ ha')).sq.smul (by simp [stdParams])).add
      ((ht.2.2.sub ((hyst.2 i _ hb').inner (ht.1.sub hxs))).smul (by simp [stdParams]))))) fun E1 r p b3 => ?_
    up p at b1 b2
    refine .pure ⟨?_, ?_, ?_⟩ <;> rw [Finset.sum_range_succ _ i, ← add_assoc] <;> assumption
  rintro ⟨E1, E2, D1⟩ r12 p ⟨a1, a2, a3⟩
  rw [e4, zero_add] at a1 a2 a3
  up p at d3
  exact Can.bind (.finishMetric a1 a2 a3) fun _ _ p h => .pure ⟨d3.mono p, h⟩

/-- `admm_euler_consensus` -/
theorem can_admmEulerConsensus {k : ℕ} {mu : ℚ} {L : Option ℚ} {R Ind : ℚ} (hD : defDecl mu L = D) {x_star e1 : E}
    {ys i1 x1 g1 i2 : ℕ → E} {vs v1 : ℕ → ℝ} (hs : ∀ i < k + 2, SR i x_star (ys i) (vs i))
    (hys : ∑ i ∈ Finset.range (k + 2), ys i = 0) (hi1 : ∑ i ∈ Finset.range (k + 2), i1 i = 0)
    (h1 : ∀ i < k + 2, SR i (x1 i) (g1 i) (v1 i)) (hp1 : ∀ i < k + 2, x1 i + (R : ℝ) • g1 i = (R : ℝ) • i1 i + e1)
    (hi2 : ∀ i < k + 2, i2 i = i1 i + (pH / Ind).eval env • (e1 - x1 i))
    (he1 : e1 = (((k : ℚ) + 2 : ℚ) : ℝ)⁻¹ • ∑ i ∈ Finset.range (k + 2), x1 i) :
    Can W0 D SR env (admmEulerConsensus k mu L R Ind) (RRegs.empty E) fun _ rr => rr.metric =
      some (∑ i ∈ Finset.range (k + 2), ((Ind / 2 : ℚ) : ℝ) * ‖i2 i - ys i‖ ^ 2 -
        (∑ i ∈ Finset.range (k + 2), ((Ind / 2 : ℚ) : ℝ) * ‖i1 i - ys i‖ ^ 2 -
        ((-pEta).eval env * (∑ i ∈ Finset.range (k + 2), vs i) + ∑ i ∈ Finset.range (k + 2), ((@HMul.hMul Sym ℚ Sym _ pRho R).eval env * ‖g1 i - i1 i‖ ^ 2 +
          pEta.eval env * (v1 i - ⟪ys i, x1 i - x_star⟫_ℝ))))) := by
  have hk : ((k : ℚ) + 2) ≠ 0 := by positivity
  unfold admmEulerConsensus
  refine Can.bind (.defineSum hD _ rfl) ?_
  rintro ⟨fs, f⟩ r1 - ⟨hfs, hf⟩
  dsimp only at hfs hf ⊢
  refine Can.bind (.stationary hf (by rw [← hys]; exact sumSample_range hs)) ?_
  rintro ⟨xs, y, fst⟩ r2 p ⟨hxs, hy, hv⟩
  dsimp only at hxs hy hv ⊢
  up p at hfs
  refine Can.bind (can_star hfs hxs hs) ?_
  rintro ⟨ystar, s⟩ r3 p ⟨hyst, hsum⟩
  dsimp only at hyst hsum ⊢
  up p at hfs hxs hy hv
  refine Can.bind (.equality (show IsEx _ _ _ _ 0 from ?_)) fun _ r p _ => ?_
  · have := ((hsum.getD (by omega)).sub hy).sq
    rwa [hys, sub_zero, norm_zero, zero_pow two_ne_zero] at this
  up p at hfs hxs hv hyst
  refine Can.bind (can_currents i1) ?_
  rintro ⟨iL, last⟩ r p ⟨c1, c2⟩
  dsimp only at c1 c2 ⊢
  up p at hfs hxs hv hyst
  replace c2 := c2.getD (by omega)
  rw [Finset.sum_range_succ] at hi1
  rw [neg_eq_of_add_eq_zero_right hi1] at c2
  replace c1 := c1.append c2
  generalize iL ++ [last.getD (.reg 0)] = i_1 at *
  clear c2
  refine Can.bind (.initial e1) fun e_1 r p a1 => ?_
  up p at hfs hxs hv hyst c1
  refine Can.bind (can_proxLoop c1 hfs a1 h1 hp1) ?_
  rintro ⟨t1, s⟩ r p ⟨d1, d2⟩
  dsimp only at d1 d2 ⊢
  replace d2 := d2.getD (by omega)
  up p at hfs hxs hv hyst a1 c1
  generalize s.getD (.reg 0) = s_1 at *
  have e1' : (i_1.zip t1).length = k + 2 := by simp [c1.1, d1.1]
  refine Can.bind (Can.mapB (v := i2) fun a i r hi p => ?_) ?_
  · have hl := lt_of_get hi e1'
    obtain ⟨ha, hb⟩ := zip_get hi
    rw [hi2 i hl]
    exact .pt (((c1.2 i _ ha).add (.smul (by simp [stdParams]) (a1.sub (d1.2 i _ hb).1))).mono p)
  intro i_2 r p d3
  rw [e1'] at d3
  up p at hxs hv hyst a1 c1 d1 d2
  refine Can.bind (.pt (d2.div hk)) fun sx r p d4 => ?_
  rw [← he1] at d4
  up p at hxs hv hyst a1 c1 d1 d3
  refine Can.bind (.equality (show IsEx _ _ _ _ 0 from ?_)) fun _ r p _ => ?_
  · have := (a1.sub d4).sq
    rwa [sub_self, norm_zero, zero_pow two_ne_zero] at this
  up p at hxs hv hyst c1 d1 d3
  refine Can.bind (.ex (hv.smul (by simp [stdParams]))) fun D_1 r p b3 => ?_
  up p at hxs hyst c1 d1 d3
  have e4 : ((i_1.zip i_2).zip (t1.zip ystar)).length = k + 2 := by simp [c1.1, d3.1, d1.1, hyst.1]
  refine Can.bind (Can.loop (fun j s r => IsOptEx W0 env r s.1.1 j (∑ i ∈ Finset.range j, ((Ind / 2 : ℚ) : ℝ) * ‖i1 i - ys i‖ ^ 2) ∧
    IsOptEx W0 env r s.1.2 j (∑ i ∈ Finset.range j, ((Ind / 2 : ℚ) : ℝ) * ‖i2 i - ys i‖ ^ 2) ∧
    IsEx W0 env r s.2 ((-pEta).eval env * (∑ i ∈ Finset.range (k + 2), vs i) + ∑ i ∈ Finset.range j, ((@HMul.hMul Sym ℚ Sym _ pRho R).eval env * ‖g1 i - i1 i‖ ^ 2 +
          pEta.eval env * (v1 i - ⟪ys i, x1 i - x_star⟫_ℝ)))) (j := 0)
    ⟨by simp [IsOptEx], by simp [IsOptEx], by simpa using b3⟩ ?_) ?_
  · rintro s a i r hi p ⟨a1, a2, a3⟩
    obtain ⟨ha, hb⟩ := zip_get hi
    obtain ⟨ha, ha'⟩ := zip_get ha
    obtain ⟨hb, hb'⟩ := zip_get hb
    up p at hxs hyst c1 d1 d3
    simp only [zero_add] at *
    unfold eulerEnergyStep
    refine Can.bind (.addEx a1 (((c1.2 i _ ha).sub (hyst.2 i _ hb')).sq.qmul)) fun E1 r p b1 => ?_
    up p at hxs hyst c1 d1 d3 a2 a3
    refine Can.bind (.addEx a2 (((d3.2 i _ ha').sub (hyst.2 i _ hb')).sq.qmul)) fun E1 r p b2 => ?_
    up p at hxs hyst c1 d1 d3 a3 b1
    have ht := d1.2 i _ hb
    refine Can.bind (.ex (a3.add (((ht.2.1.sub (c1.2 i _ ha)).sq.smul (by simp [stdParams])).add
      ((ht.2.2.sub ((hyst.2 i _ hb').inner (ht.1.sub hxs))).smul (by simp [stdParams]))))) fun E1 r p b3 => ?_
    up p at b1 b2
    refine .pure ⟨?_, ?_, ?_⟩
    · rw [Finset.sum_range_succ]; exact b1
    · rw [Finset.sum_range_succ]; exact b2
    · rw [Finset.sum_range_succ _ i, ← add_assoc]; exact b3
  rintro ⟨⟨E1, E2⟩, D1⟩ r12 p ⟨a1, a2, a3⟩
  rw [e4, zero_add] at a1 a2 a3
  exact Can.bind (.finishMetric (a1.getD (by omega)) (a2.getD (by omega)) a3) fun _ _ _ h => .pure h

end Verif
