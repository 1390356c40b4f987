import Verif.Proofs.DualRun

/-!
# The runs of `admm_consensus` with any number of functions
-/

namespace Verif
open Build Heap
open scoped InnerProductSpace

variable {α β σ : Type}

theorem FreshB.prox (x : PE) (f : FE) (g : Sym) : FreshB (Build.prox x f g) := .andThen (.of_quiet (.ptArg x)) fun _ => .andThen (.fnArg f) fun _ => .emit rfl _
theorem QuietB.exArg (e : EE) : QuietB (exArg e) := by cases e <;> first | exact .ret _ | exact .emit rfl _
theorem FreshB.equality (e : EE) : FreshB (Build.equality e) := .andThen (.of_quiet (.exArg e)) fun _ => .emit rfl _

theorem QuietB.currentStep (s : List PE × Option PE) (i : ℕ) : QuietB (currentStep s i) := by
  unfold Build.currentStep
  exact .bind .initial fun _ => .bind (.subFrom _ _) fun _ => .pure _

theorem QuietB.admmEnergyStep (R Ind : ℚ) (x : PE) (s : EE × EE × EE) (a : (PE × PE) × (PE × PE × EE) × PE) : QuietB (admmEnergyStep R Ind x s a) := by
  unfold Build.admmEnergyStep
  exact .bind (.ex _) fun _ => .bind (.ex _) fun _ => .bind (.ex _) fun _ => .pure _

theorem FreshB.starStep (x : PE) (s : List PE × Option PE) (f : FE) : FreshB (starStep x s f) := by
  unfold Build.starStep
  exact .bind (.oracle _ _) fun _ => .bind (.of_quiet (.addTo _ _)) fun _ => .pure _

theorem FreshB.proxStep (R : ℚ) (e : PE) (s : List (PE × PE × EE) × Option PE) (a : PE × FE) : FreshB (proxStep R e s a) := by
  unfold Build.proxStep
  exact .bind (.prox _ _ _) fun _ => .bind (.of_quiet (.addTo _ _)) fun _ => .pure _

theorem fresh_admmConsensus (k : ℕ) (mu : ℚ) (L : Option ℚ) (R Ind : ℚ) : FreshB (admmConsensus k mu L R Ind) := by
  unfold admmConsensus
  refine .bind (.defineSum _ _ _) ?_
  rintro ⟨fs, f⟩
  refine .bind (.stationary _) ?_
  rintro ⟨xs, _, _⟩
  refine .bind (.loop (fun _ _ => .starStep _ _ _) _ _) ?_
  rintro ⟨ys, s⟩
  refine .bind (.equality _) fun _ => .bind (.of_quiet .initial) fun _ => .bind (.of_quiet (.loop .currentStep _ _)) ?_
  rintro ⟨iL, last⟩
  refine .bind (.loop (fun _ _ => .proxStep _ _ _ _) _ _) ?_
  rintro ⟨t15, s⟩
  refine .bind (.mapB (fun _ => .of_quiet (.pt _)) _) fun _ => .bind (.of_quiet (.pt _)) fun _ => .bind (.loop (fun _ _ => .proxStep _ _ _ _) _ _) ?_
  rintro ⟨t2, s⟩
  refine .bind (.of_quiet (.pt _)) fun _ => .bind (.mapB (fun _ => .of_quiet (.pt _)) _) fun _ => .bind (.of_quiet (.ex _)) fun _ =>
    .bind (.of_quiet (.ex _)) fun _ => .bind (.of_quiet (.ex _)) fun _ => .bind (.of_quiet (.loop (fun _ _ => .admmEnergyStep _ _ _ _ _) _ _)) ?_
  rintro ⟨_, _, _⟩
  exact .bind (.of_quiet (.finishMetric _ _ _)) fun _ => .pure _

variable {E : Type} [NormedAddCommGroup E] [InnerProductSpace ℝ E] {W : Set Name} {D : FnDecl} {SR : ℕ → E → E → ℝ → Prop} {env : Name → ℝ}
  {rr rr' : RRegs E} {bs : List Bool}

theorem Trk.prox {f : FE} {i : ℕ} {w : ℕ →₀ ℝ} {x0 : PE} {u x g : E} {v : ℝ} {gamma : Sym} (hd : IsDecl bs f i) (hf : IsFn rr f w) (hx : IsPt W env rr x0 u)
    (hg : ∀ n ∈ gamma.vars, n ∈ W) (h : SumSample SR w x g v) (hu : x + gamma.eval env • g = u) :
    Trk W D SR env (Build.prox x0 f gamma) rr bs fun r rr' bs' c => (IsPt W env rr' r.1 x ∧ IsPt W env rr' r.2.1 g ∧ IsEx W env rr' r.2.2 v) ∧ bs' = bs ∧
      ∃ j, At rr' j x ∧ ∀ k, c k = if i = k then [j] else [] := by
  obtain ⟨r, rfl, h2, h3, h4⟩ := hd
  have hc := Can.prox (D := D) hf hx hg h hu
  have h3' := h3
  rw [List.getD_eq_getElem?_getD] at h3'
  refine (Trk.of_can (bs := bs) hc ?_ ?_).mono fun a rr' bs' c p ⟨b1, b2, b3, b4⟩ => ⟨b1, ?_, ?_⟩
  · cases x0 <;> simp [Build.prox, Build.andThen, fnArg, ptArg, Build.ret, emit]
  · cases x0 <;> simp [Build.prox, Build.andThen, fnArg, ptArg, Build.ret, emit, standardFrom, Instr.Standard, Instr.declares, h3']
  · rw [b3]
    cases x0 <;> simp [Build.prox, Build.andThen, fnArg, ptArg, Build.ret, emit, declAll, Instr.declares]
  · have key : ∃ j, a.1 = .reg j ∧ ∀ k, c k = if i = k then [j] else [] := by
      cases x0 <;> refine ⟨_, congrArg Prod.fst b2, fun k => ?_⟩ <;> rw [b4] <;>
        simp [Build.prox, Build.andThen, fnArg, ptArg, Build.ret, emit, callsFrom, Instr.callsOf, Instr.declares, Instr.next, h4]
    obtain ⟨j, hj, hk⟩ := key
    exact ⟨j, IsReg.getD ⟨hj, b1.1⟩, hk⟩

section
variable (W D SR env)

/-- as `Trk`, for builders that add equality constraints -/
def TrkE (c : Build α) (rr : RRegs E) (bs : List Bool) (Q : α → RRegs E → List Bool → (ℕ → List ℕ) → Prop) : Prop :=
  Can W D SR env c rr fun a rr' => (∀ q ∈ rr'.cons, q ∈ rr.cons ∨ q.2 = .equality) ∧ standardFrom bs (c rr.counts).2.2 = true ∧
    Q a rr' (declAll bs (c rr.counts).2.2) fun k => callsFrom k bs rr.counts (c rr.counts).2.2
end

theorem Trk.toE {c : Build α} {Q : α → RRegs E → List Bool → (ℕ → List ℕ) → Prop} (h : Trk W D SR env c rr bs Q) : TrkE W D SR env c rr bs Q :=
  Can.mono h fun _ _ _ ⟨h1, h2⟩ => ⟨fun _ hq => .inl (h1 ▸ hq), h2⟩

theorem TrkE.bind {c : Build α} {f : α → Build β} {P : α → RRegs E → List Bool → (ℕ → List ℕ) → Prop}
    {Q : β → RRegs E → List Bool → (ℕ → List ℕ) → Prop} (h : TrkE W D SR env c rr bs P)
    (hf : ∀ a rr' bs' v, rr.Prefix rr' → P a rr' bs' v → TrkE W D SR env (f a) rr' bs' fun b rr'' bs'' v' => Q b rr'' bs'' fun k => v k ++ v' k) :
    TrkE W D SR env (c >>= f) rr bs Q := by
  obtain ⟨rr', h1, h2, h3, h4, h5, h6, h7, h8⟩ := h
  obtain ⟨rr'', g1, g2, g3, g4, g5, g6, g7, g8⟩ := hf _ rr' _ _ (exec_prefix h1) h8
  show TrkE W D SR env (andThen c f) rr bs Q
  refine ⟨rr'', ?_, ?_, ?_, ?_, fun h => g5 (h5 h), fun q hq => (g6 q hq).elim (h6 q) .inr, ?_, ?_⟩ <;> simp only [Build.andThen, h2]
  · exact h1.append g1
  · exact g2
  · rw [safeProg_append, h3, ← exec_counts h1, g3]; rfl
  · intro i hi
    rcases List.mem_append.1 hi with hi | hi
    · exact h4 i hi
    · exact g4 i hi
  · rw [standardFrom_append, h7, g7]; rfl
  · simp only [declAll_append, callsFrom_append, ← exec_counts h1]; exact g8

theorem cons_of_equality {is : List Instr} {rr rr' : RRegs E} (h : Exec SR env is rr rr') (hq : ∀ i ∈ is, ∀ e kd, i = .constr e kd → kd = .equality) :
    ∀ q ∈ rr'.cons, q ∈ rr.cons ∨ q.2 = .equality := by
  induction h with
  | nil => exact fun q hq => .inl hq
  | @cons i is _ _ _ s _ ih =>
    intro q hm
    rcases ih (fun j hj => hq j (by simp [hj])) q hm with h | h
    · have := hq i (by simp)
      cases s <;> first | exact .inl h | skip
      rcases List.mem_append.1 h with h | h
      · exact .inl h
      · rw [List.mem_singleton.1 h]; exact .inr (this _ _ rfl)
    · exact .inr h

theorem TrkE.equality {e : EE} (h : IsEx W env rr e 0) : TrkE W D SR env (Build.equality e) rr bs fun _ _ bs' c => bs' = bs ∧ ∀ k, c k = [] := by
  obtain ⟨rr', h1, h2, h3, h4, h5, -⟩ := Can.equality (D := D) (SR := SR) h
  refine ⟨rr', h1, h2, h3, h4, h5, cons_of_equality h1 ?_, ?_, ?_, fun k => ?_⟩ <;>
    cases e <;> simp [Build.equality, Build.andThen, exArg, Build.ret, emit, standardFrom, Instr.Standard, declAll, Instr.declares, callsFrom, Instr.callsOf]

set_option quotPrecheck false in
local notation "W0" => {n | n ∈ stdParams}

/-- as `Trk.stationary`, with the value of the function -/
theorem Trk.stationary' {f : FE} {w : ℕ →₀ ℝ} {x : E} {v : ℝ} {r m : ℕ} (hfr : f = .reg r) (hm : ∀ k < m, bs.getD r false = true → declIndex bs r = k)
    (hf : IsFn rr f w) (h : SumSample SR w x 0 v) : Trk W D SR env (Build.stationary f) rr bs fun r rr' bs' c =>
      (∃ j, IsReg W env rr' r.1 j x ∧ ∀ k < m, c k = [j]) ∧ IsPt W env rr' r.2.1 0 ∧ IsEx W env rr' r.2.2 v ∧ bs' = bs := by
  subst hfr
  refine (Trk.of_can (bs := bs) (Can.stationary (D := D) hf h) ?_ ?_).mono fun a rr' bs' c p ⟨⟨b1, b2, b6⟩, b5, b3, b4⟩ =>
    ⟨⟨rr.counts.np, ⟨congrArg Prod.fst b5, b1⟩, fun k hk => ?_⟩, b2, b6, b3⟩
  · simp [Build.stationary, Build.andThen, fnArg, Build.ret, emit]
  · simp [Build.stationary, Build.andThen, fnArg, Build.ret, emit, standardFrom, Instr.Standard]
  · rw [b4]
    have := hm k hk
    show (if bs.getD r false = true ∧ declIndex bs r ≠ k then [] else [rr.counts.np]) ++ [] = [rr.counts.np]
    rw [if_neg (by rintro ⟨h1, h2⟩; exact h2 (this h1))]
    rfl

theorem trk_star {f : List FE} {m j0 : ℕ} {x : PE} {u : E} {y : ℕ → E} {v : ℕ → ℝ} (hF : IsFns rr f m fun i => Finsupp.single i 1)
    (hd : ∀ i e, f[i]? = some e → IsDecl bs e i) (hx : IsReg W0 env rr x j0 u) (hs : ∀ i < m, SR i u (y i) (v i)) :
    Trk W0 D SR env (loop (starStep x) f ([], none)) rr bs fun s r bs' c =>
      (IsPts W0 env r s.1 m y ∧ IsOpt W0 env r s.2 m (∑ i ∈ Finset.range m, y i)) ∧ bs' = bs ∧ ∀ q < m, c q = [j0] := by
  have hl : f.length = m := hF.1
  refine (Trk.loop (fun j s r bs' c => (IsPts W0 env r s.1 j y ∧ IsOpt W0 env r s.2 j (∑ i ∈ Finset.range j, y i)) ∧ bs' = bs ∧
    ∀ q, c q = if q < j then [j0] else []) (j := 0) (v := fun _ => []) ⟨⟨.nil, by simp [IsOpt]⟩, rfl, by simp⟩ ?_).mono fun s r bs' c p ⟨h1, h2, h3⟩ => by
      rw [hl, zero_add] at h1 h3; exact ⟨h1, h2, fun q hq => by simpa [hq] using h3 q⟩
  rintro s a i r bs c hi p ⟨⟨h, h'⟩, rfl, hc⟩
  up p at hF hx
  simp only [zero_add] at *
  unfold starStep
  refine Trk.bind (.oracle (hd i _ hi) (hF.2 i _ hi) hx (smp (hs i (lt_of_get hi hl)))) ?_
  rintro ⟨g, w⟩ r bs c1 p ⟨b1, rfl, e1⟩
  up p at h h'
  refine Trk.bind (Trk.quiet (.addTo h' b1) (QuietB.addTo _ _)) ?_
  rintro z r bs c2 p ⟨b2, rfl, e2⟩
  up p at h b1
  refine .ret ⟨⟨h.append b1, ?_⟩, rfl, fun q => ?_⟩
  · rw [Finset.sum_range_succ]; exact b2
  · simp only [hc, e1, e2, List.append_nil]
    by_cases h1 : q < i
    · rw [if_pos h1, if_neg (by omega), if_pos (by omega)]; rfl
    · by_cases h2 : i = q
      · rw [if_neg h1, if_pos h2, if_pos (by omega)]; rfl
      · rw [if_neg h1, if_neg h2, if_neg (by omega)]; rfl

theorem trk_proxLoop {l : List PE} {f : List FE} {m : ℕ} {e : PE} {R : ℚ} {u : E} {c x g : ℕ → E} {v : ℕ → ℝ}
    (hI : IsPts W0 env rr l m c) (hF : IsFns rr f m fun i => Finsupp.single i 1) (hd : ∀ i e, f[i]? = some e → IsDecl bs e i) (he : IsPt W0 env rr e u)
    (hs : ∀ i < m, SR i (x i) (g i) (v i)) (hx : ∀ i < m, x i + (R : ℝ) • g i = (R : ℝ) • c i + u) :
    Trk W0 D SR env (loop (proxStep R e) (l.zip f) ([], none)) rr bs fun s r bs' c' =>
      (IsTrips W0 env r s.1 m x g v ∧ IsOpt W0 env r s.2 m (∑ i ∈ Finset.range m, x i)) ∧ bs' = bs ∧ ∀ q < m, ∃ a, c' q = [a] ∧ At r a (x q) := by
  have hl : (l.zip f).length = m := by simp [hI.1, hF.1]
  refine (Trk.loop (fun j s r bs' c' => (IsTrips W0 env r s.1 j x g v ∧ IsOpt W0 env r s.2 j (∑ i ∈ Finset.range j, x i)) ∧ bs' = bs ∧
    (∀ q < j, ∃ a, c' q = [a] ∧ At r a (x q)) ∧ ∀ q, j ≤ q → c' q = []) (j := 0) (v := fun _ => [])
    ⟨⟨⟨rfl, by simp⟩, by simp [IsOpt]⟩, rfl, by simp, by simp⟩ ?_).mono fun s r bs' c' p ⟨h1, h2, h3, h4⟩ => by
      rw [hl, zero_add] at h1 h3; exact ⟨h1, h2, by simpa using h3⟩
  rintro s a i r bs c' hi p ⟨⟨h, h'⟩, rfl, hc, hc'⟩
  obtain ⟨ha, hb⟩ := zip_get hi
  have hlt := lt_of_get hi hl
  up p at hF hI he
  simp only [zero_add] at *
  unfold proxStep
  refine Trk.bind (.prox (hd i _ hb) (hF.2 i _ hb) ((hI.2 i _ ha).qmul.add he) (by simp) (smp (hs i hlt)) (by simpa using hx i hlt)) ?_
  rintro t r bs c1 p ⟨⟨b1, b2, b3⟩, rfl, j, hj, e1⟩
  have hc : ∀ q < i, ∃ a, c' q = [a] ∧ At r a (x q) := fun q hq => by obtain ⟨a, h1, h2⟩ := hc q hq; exact ⟨a, h1, h2.mono p⟩
  up p at h h'
  refine Trk.bind (Trk.quiet (.addTo h' b1) (QuietB.addTo _ _)) ?_
  rintro z r bs c2 p ⟨b4, rfl, e2⟩
  have hc : ∀ q < i, ∃ a, c' q = [a] ∧ At r a (x q) := fun q hq => by obtain ⟨a, h1, h2⟩ := hc q hq; exact ⟨a, h1, h2.mono p⟩
  up p at h b1 b2 b3 hj
  refine .ret ⟨⟨h.append ⟨b1, b2, b3⟩, ?_⟩, rfl, fun q hq => ?_, fun q hq => ?_⟩
  · rw [Finset.sum_range_succ]; exact b4
  · simp only [e1, e2, List.append_nil]
    by_cases hqi : i = q
    · subst hqi; exact ⟨j, by simp [hc' i le_rfl], hj⟩
    · obtain ⟨a, ha, hb⟩ := hc q (by omega)
      exact ⟨a, by simp [ha, hqi], hb⟩
  · simp only [e1, e2, List.append_nil]
    rw [hc' q (by omega), if_neg (by omega)]; rfl

/-- `admm_consensus` evaluates the function number `i` at `x_star` (twice), `x_1p5 i` and `x_2 i` -/
theorem trk_admmConsensus {k : ℕ} {mu : ℚ} {L : Option ℚ} {R Ind : ℚ} (hD : defDecl mu L = D) {x_star e1 s15 e15 e2 : E}
    {ys i1 x15 g15 i15 x2 g2 i2 : ℕ → E} {vs v15 v2 : ℕ → ℝ} (hs : ∀ i < k + 2, SR i x_star (ys i) (vs i))
    (hys : ∑ i ∈ Finset.range (k + 2), ys i = 0) (hi1 : ∑ i ∈ Finset.range (k + 2), i1 i = 0)
    (h15 : ∀ i < k + 2, SR i (x15 i) (g15 i) (v15 i)) (hp15 : ∀ i < k + 2, x15 i + (R : ℝ) • g15 i = (R : ℝ) • i1 i + e1)
    (hs15 : s15 = ∑ i ∈ Finset.range (k + 2), x15 i)
    (hi15 : ∀ i < k + 2, i15 i = i1 i + (pAlpha * pH / Ind).eval env • (s15 - x15 i))
    (he15 : e15 = (((k : ℚ) + 2 : ℚ) : ℝ)⁻¹ • s15)
    (h2 : ∀ i < k + 2, SR i (x2 i) (g2 i) (v2 i)) (hp2 : ∀ i < k + 2, x2 i + (R : ℝ) • g2 i = (R : ℝ) • i15 i + e15)
    (he2 : e2 = (((k : ℚ) + 2 : ℚ) : ℝ)⁻¹ • ∑ i ∈ Finset.range (k + 2), x2 i)
    (hi2 : ∀ i < k + 2, i2 i = i1 i + (pBeta * pH / Ind).eval env • (e15 - x15 i) + ((1 - pBeta) * pH / Ind).eval env • (e2 - x2 i)) :
    TrkE W0 D SR env (admmConsensus k mu L R Ind) (RRegs.empty E) [] fun _ rr bs c => (∃ v, rr.metric = some v) ∧ bs.count true = k + 2 ∧
      ∃ j0, At rr j0 x_star ∧ ∀ i < k + 2, ∃ a b, c i = [j0, j0, a, b] ∧ At rr a (x15 i) ∧ At rr b (x2 i) := by
  have hk : ((k : ℚ) + 2) ≠ 0 := by positivity
  unfold admmConsensus
  refine TrkE.bind (Trk.toE (.defineSum hD _ rfl rfl)) ?_
  rintro ⟨fs, f⟩ r1 bs c0 - ⟨hfs, hf, hsum, hc0⟩
  dsimp only at hfs hf hsum ⊢
  obtain ⟨rg, hr1, -, hr2⟩ := hsum.reg
  have hl : fs.length = k + 2 := hfs.1
  refine TrkE.bind (Trk.toE (.stationary' hr1 hr2 hf (by rw [← hys]; exact sumSample_range hs))) ?_
  rintro ⟨xs, y, fst⟩ r bs c1 p ⟨⟨j0, hxs, hc1⟩, hy, hv, rfl⟩
  dsimp only at hxs hy hv ⊢
  up p at hfs
  refine TrkE.bind (Trk.toE (trk_star hfs hsum.decl hxs hs)) ?_
  rintro ⟨ystar, s⟩ r bs c2 p ⟨⟨hyst, hsm⟩, rfl, hc2⟩
  dsimp only at hyst hsm ⊢
  up p at hfs hxs hv hy
  refine TrkE.bind (TrkE.equality (show IsEx _ _ _ _ 0 from ?_)) ?_
  · have := ((hsm.getD (by omega)).sub hy).sq
    rwa [hys, sub_zero, norm_zero, zero_pow two_ne_zero] at this
  rintro _ r bs c3 p ⟨rfl, hc3⟩
  up p at hfs hxs hv hyst
  refine Trk.toE ?_
  refine Trk.bind (.initial e1) ?_
  rintro e_1 r bs c4 p ⟨⟨-, -, a1⟩, rfl, hc4⟩
  up p at hfs hxs hv hyst
  refine Trk.bind (Trk.quiet (can_currents i1) (QuietB.loop .currentStep _ _)) ?_
  rintro ⟨iL, last⟩ r bs c5 p ⟨⟨d1, d2⟩, rfl, hc5⟩
  dsimp only at d1 d2 ⊢
  up p at hfs hxs hv hyst a1
  replace d2 := d2.getD (by omega)
  rw [Finset.sum_range_succ] at hi1
  rw [neg_eq_of_add_eq_zero_right hi1] at d2
  replace d1 := d1.append d2
  generalize iL ++ [last.getD (.reg 0)] = i_1 at *
  clear d2
  refine Trk.bind (trk_proxLoop d1 hfs hsum.decl a1 h15 hp15) ?_
  rintro ⟨t15, s⟩ r bs c6 p ⟨⟨d3, d2⟩, rfl, hc6⟩
  dsimp only at d3 d2 ⊢
  replace d2 := d2.getD (by omega)
  rw [← hs15] at d2
  up p at hfs hxs hv hyst a1 d1
  generalize s.getD (.reg 0) = s_15 at *
  have e1' : (i_1.zip t15).length = k + 2 := by simp [d1.1, d3.1]
  refine Trk.bind (Trk.quiet (Can.mapB (v := i15) fun a i r hi p => ?_) (QuietB.mapB (fun _ => .pt _) _)) ?_
  · have hl := lt_of_get hi e1'
    obtain ⟨ha, hb⟩ := zip_get hi
    rw [hi15 i hl]
    exact .pt (((d1.2 i _ ha).add (.smul (by simp [stdParams]) (d2.sub (d3.2 i _ hb).1))).mono p)
  rintro i_15 r bs c7 p ⟨d4, rfl, hc7⟩
  rw [e1'] at d4
  have hc6 : ∀ q < k + 2, ∃ a, c6 q = [a] ∧ At r a (x15 q) := fun q hq => by obtain ⟨a, h1, h2⟩ := hc6 q hq; exact ⟨a, h1, h2.mono p⟩
  up p at hfs hxs hv hyst a1 d1 d3 d2
  refine Trk.bind (.pt (d2.div hk)) ?_
  rintro e_15 r bs c8 p ⟨⟨-, -, d5⟩, rfl, hc8⟩
  rw [← he15] at d5
  have hc6 : ∀ q < k + 2, ∃ a, c6 q = [a] ∧ At r a (x15 q) := fun q hq => by obtain ⟨a, h1, h2⟩ := hc6 q hq; exact ⟨a, h1, h2.mono p⟩
  up p at hfs hxs hv hyst a1 d1 d3 d4
  refine Trk.bind (trk_proxLoop d4 hfs hsum.decl d5 h2 hp2) ?_
  rintro ⟨t2, s⟩ r bs c9 p ⟨⟨g1, g2'⟩, rfl, hc9⟩
  dsimp only at g1 g2' ⊢
  replace g2' := g2'.getD (by omega)
  have hc6 : ∀ q < k + 2, ∃ a, c6 q = [a] ∧ At r a (x15 q) := fun q hq => by obtain ⟨a, h1, h2⟩ := hc6 q hq; exact ⟨a, h1, h2.mono p⟩
  up p at hxs hv hyst a1 d1 d3 d5
  have hx := hxs.2
  refine Trk.mono (Trk.quiet (Q := fun _ rr => r.Prefix rr ∧ ∃ v, rr.metric = some v) ?_ ?_) ?_
  · suffices h : Can W0 D SR env _ r fun _ rr => ∃ v, rr.metric = some v from Can.mono h fun _ _ p h => ⟨p, h⟩
    refine Can.bind (.pt (g2'.div hk)) fun e_2 r p g3 => ?_
    rw [← he2] at g3
    up p at hx hv hyst a1 d1 d3 d5 g1
    have e3 : (i_1.zip (t15.zip t2)).length = k + 2 := by simp [d1.1, d3.1, g1.1]
    refine Can.bind (Can.mapB (v := i2) fun a i r hi p => ?_) ?_
    · have hl := lt_of_get hi e3
      obtain ⟨ha, hb⟩ := zip_get hi
      obtain ⟨hb, hc⟩ := zip_get hb
      rw [hi2 i hl]
      exact .pt ((((d1.2 i _ ha).add (.smul (by simp [stdParams]) (d5.sub (d3.2 i _ hb).1))).add
        (.smul (by simp [stdParams]) (g3.sub (g1.2 i _ hc).1))).mono p)
    intro i_2 r p g4
    rw [e3] at g4
    up p at hx hv hyst a1 d1 g1 g3
    refine Can.bind (.ex ((a1.sub hx).sq.smul (by simp [stdParams]))) fun E_1 r p b1 => ?_
    up p at hx hv hyst d1 g1 g3 g4
    refine Can.bind (.ex ((g3.sub hx).sq.smul (by simp [stdParams]))) fun E_2 r p b2 => ?_
    up p at hx hv hyst d1 g1 g4 b1
    refine Can.bind (.ex (hv.smul (by simp [stdParams]))) fun D_1 r p b3 => ?_
    up p at hx hyst d1 g1 g4 b1 b2
    have e4 : ((i_1.zip i_2).zip (t2.zip ystar)).length = k + 2 := by simp [d1.1, g4.1, g1.1, hyst.1]
    refine Can.bind (Can.loop (fun j s r => (∃ v, IsEx W0 env r s.1 v) ∧ (∃ v, IsEx W0 env r s.2.1 v) ∧ ∃ v, IsEx W0 env r s.2.2 v) (j := 0)
      ⟨⟨_, b1⟩, ⟨_, b2⟩, _, b3⟩ ?_) ?_
    · rintro s a i r hi p ⟨⟨_, a1⟩, ⟨_, a2⟩, _, a3⟩
      obtain ⟨ha, hb⟩ := zip_get hi
      obtain ⟨ha, ha'⟩ := zip_get ha
      obtain ⟨hb, hb'⟩ := zip_get hb
      up p at hx hyst d1 g1 g4
      unfold admmEnergyStep
      refine Can.bind (.ex (a1.add (((d1.2 i _ ha).sub (hyst.2 i _ hb')).sq.qmul))) fun E1 r p b1 => ?_
      up p at hx hyst d1 g1 g4 a2 a3
      refine Can.bind (.ex (a2.add (((g4.2 i _ ha').sub (hyst.2 i _ hb')).sq.qmul))) fun E1 r p b2 => ?_
      up p at hx hyst d1 g1 g4 a3 b1
      have ht := g1.2 i _ hb
      refine Can.bind (.ex (a3.add (((ht.2.1.sub (g4.2 i _ ha')).sq.smul (by simp [stdParams])).add
        ((ht.2.2.sub ((hyst.2 i _ hb').inner (ht.1.sub hx))).smul (by simp [stdParams]))))) fun E1 r p b3 => ?_
      up p at b1 b2
      exact .pure ⟨⟨_, b1⟩, ⟨_, b2⟩, _, b3⟩
    rintro ⟨E1, E2, D1⟩ r12 p ⟨⟨_, a1⟩, ⟨_, a2⟩, _, a3⟩
    exact Can.bind (.finishMetric a1 a2 a3) fun _ _ _ h => .pure ⟨_, h⟩
  · refine QuietB.bind (.pt _) fun _ => .bind (.mapB (fun _ => .pt _) _) fun _ => .bind (.ex _) fun _ => .bind (.ex _) fun _ => .bind (.ex _) fun _ =>
      .bind (.loop (fun _ _ => .admmEnergyStep _ _ _ _ _) _ _) ?_
    rintro ⟨_, _, _⟩
    exact .bind (.finishMetric _ _ _) fun _ => .pure _
  · rintro e r bs c10 p ⟨⟨p', hm⟩, rfl, hc10⟩
    refine ⟨hm, hsum.count, j0, At.mono hxs.getD p', fun i hi => ?_⟩
    obtain ⟨a, ha, ha'⟩ := hc6 i hi
    obtain ⟨b, hb, hb'⟩ := hc9 i hi
    refine ⟨a, b, ?_, ha'.mono p', hb'.mono p'⟩
    rw [hc0, hc1 i hi, hc2 i hi, hc3, hc4, hc5, ha, hc7, hc8, hb, hc10]
    rfl

end Verif
