import Verif.Proofs.TrackLogic
import Verif.Proofs.Repeat
import Verif.Props.CompleteCircuits

/-!
# The runs of `dual_decomposition` with any number of functions
-/

namespace Verif
open Build Heap
open scoped InnerProductSpace

variable {α β σ : Type}

/-- builders without `add_point` and proximal steps -/
def FreshB (c : Build α) : Prop := ∀ n, ∀ i ∈ (c n).2.2, i.Fresh = true

theorem FreshB.of_quiet {c : Build α} (h : QuietB c) : FreshB c := by
  intro n i hi
  have := h n i hi
  cases i <;> first | rfl | simp [Instr.Quiet] at this
theorem FreshB.emit {i : Instr} (h : i.Fresh = true) (a : Counts → α) : FreshB (emit i a) := by
  intro n j hj
  simp only [Build.emit, List.mem_singleton] at hj
  rw [hj]; exact h
theorem FreshB.ret (a : α) : FreshB (ret a) := .of_quiet (.ret a)
theorem FreshB.pure (a : α) : FreshB (pure a) := .ret a
theorem FreshB.andThen {c : Build α} {f : α → Build β} (h : FreshB c) (h' : ∀ a, FreshB (f a)) : FreshB (andThen c f) := by
  intro n i hi
  simp only [Build.andThen] at hi
  rcases List.mem_append.1 hi with hi | hi
  · exact h _ _ hi
  · exact h' _ _ _ hi
theorem FreshB.bind {c : Build α} {f : α → Build β} (h : FreshB c) (h' : ∀ a, FreshB (f a)) : FreshB (c >>= f) := .andThen h h'
theorem FreshB.loop {body : σ → α → Build σ} (h : ∀ s a, FreshB (body s a)) : ∀ (l : List α) (s : σ), FreshB (loop body l s)
  | [], _ => .ret _
  | a :: l, s => .andThen (h s a) (FreshB.loop h l)
theorem FreshB.mapB {body : α → Build β} (h : ∀ a, FreshB (body a)) : ∀ l : List α, FreshB (mapB body l)
  | [] => .ret _
  | a :: l => .andThen (h a) fun _ => .andThen (FreshB.mapB h l) fun _ => .ret _
theorem FreshB.fnArg (f : FE) : FreshB (fnArg f) := by cases f <;> first | exact .ret _ | exact .emit rfl _
theorem QuietB.ptArg (e : PE) : QuietB (ptArg e) := by cases e <;> first | exact .ret _ | exact .emit rfl _
theorem FreshB.oracle (f : FE) (x : PE) : FreshB (Build.oracle f x) := .andThen (.fnArg f) fun _ => .andThen (.of_quiet (.ptArg x)) fun _ => .emit rfl _
theorem FreshB.conj (x : PE) (f : FE) : FreshB (Build.conj x f) := .andThen (.of_quiet (.ptArg x)) fun _ => .andThen (.fnArg f) fun _ => .emit rfl _
theorem FreshB.stationary (f : FE) : FreshB (Build.stationary f) := .andThen (.fnArg f) fun _ => .emit rfl _
theorem FreshB.defineSum (mu : ℚ) (L : Option ℚ) (m : ℕ) : FreshB (Build.defineSum mu L m) := by
  unfold Build.defineSum
  exact .bind (.emit rfl _) fun _ => .loop (fun _ _ => .bind (.emit rfl _) fun _ => .bind (.emit rfl _) fun _ => .pure _) _ _

theorem QuietB.dualEnergyStep (Ind : ℚ) (x : PE) (s : Option EE × Option EE × Option EE) (a : (PE × PE) × PE × PE) : QuietB (dualEnergyStep Ind x s a) := by
  unfold Build.dualEnergyStep
  exact .bind (.addEx _ _) fun _ => .bind (.addEx _ _) fun _ => .bind (.addEx _ _) fun _ => .pure _

theorem fresh_dualDecomposition (k : ℕ) (mu : ℚ) (L : Option ℚ) (Ind : ℚ) : FreshB (dualDecomposition k mu L Ind) := by
  unfold dualDecomposition
  refine .bind (.defineSum _ _ _) ?_
  rintro ⟨fs, f⟩
  refine .bind (.stationary _) ?_
  rintro ⟨xs, _, _⟩
  refine .bind (.mapB (fun f => .bind (.oracle _ _) fun _ => .pure _) _) fun ys => .bind (.loop (fun s f => ?_) _ _) ?_
  · exact .bind (.of_quiet .initial) fun _ => .bind (.of_quiet (.subFrom _ _)) fun _ => .bind (.conj _ _) fun _ => .bind (.of_quiet (.addTo _ _)) fun _ => .pure _
  rintro ⟨⟨iL, last⟩, xs', z⟩
  refine .bind (.conj _ _) fun _ => .bind (.of_quiet (.addTo _ _)) fun _ => .bind (.of_quiet (.pt _)) fun _ => .bind (.mapB (fun _ => .of_quiet (.pt _)) _) fun _ =>
    .bind (.loop (fun s a => ?_) _ _) ?_
  · exact .bind (.conj _ _) fun _ => .bind (.of_quiet (.addTo _ _)) fun _ => .pure _
  rintro ⟨x15, z⟩
  refine .bind (.of_quiet (.pt _)) fun _ => .bind (.mapB (fun _ => .of_quiet (.pt _)) _) fun _ => .bind (.loop (fun _ _ => .of_quiet (.dualEnergyStep _ _ _ _)) _ _) ?_
  rintro ⟨_, _, _⟩
  exact .bind (.of_quiet (.finishMetric _ _ _)) fun _ => .pure _

variable {E : Type} [NormedAddCommGroup E] [InnerProductSpace ℝ E] {W : Set Name} {D : FnDecl} {SR : ℕ → E → E → ℝ → Prop} {env : Name → ℝ}
  {rr rr' : RRegs E} {bs : List Bool}

/-- the point in the register `j` has the value `v` -/
def At (rr : RRegs E) (j : ℕ) (v : E) : Prop := j < rr.pts.length ∧ rr.pts.getD j 0 = v

omit [InnerProductSpace ℝ E] in
theorem At.mono {j : ℕ} {v : E} (h : At rr j v) (p : rr.Prefix rr') : At rr' j v :=
  ⟨h.1.trans_le p.pts.length_le, by rw [prefix_getD p.pts h.1]; exact h.2⟩

theorem Trk.conj {f : FE} {i : ℕ} {w : ℕ →₀ ℝ} {x : PE} {u g : E} {v : ℝ} (hd : IsDecl bs f i) (hf : IsFn rr f w) (hx : IsPt W env rr x g)
    (h : SumSample SR w u g v) : Trk W D SR env (Build.conj x f) rr bs fun r rr' bs' c => IsPt W env rr' r u ∧ bs' = bs ∧
      ∃ j, At rr' j u ∧ ∀ k, c k = if i = k then [j] else [] := by
  obtain ⟨r, rfl, h2, h3, h4⟩ := hd
  have hc := Can.conj (D := D) hf hx h
  have h3' := h3
  rw [List.getD_eq_getElem?_getD] at h3'
  refine (Trk.of_can (bs := bs) hc ?_ ?_).mono fun a rr' bs' c p ⟨b1, b2, b3, b4⟩ => ⟨b1, ?_, ?_⟩
  · cases x <;> simp [Build.conj, Build.andThen, fnArg, ptArg, Build.ret, emit]
  · cases x <;> simp [Build.conj, Build.andThen, fnArg, ptArg, Build.ret, emit, standardFrom, Instr.Standard, Instr.declares, h3']
  · rw [b3]
    cases x <;> simp [Build.conj, Build.andThen, fnArg, ptArg, Build.ret, emit, declAll, Instr.declares]
  · have key : ∃ j, a = .reg j ∧ ∀ k, c k = if i = k then [j] else [] := by
      cases x <;> refine ⟨_, b2, fun k => ?_⟩ <;> rw [b4] <;>
        simp [Build.conj, Build.andThen, fnArg, ptArg, Build.ret, emit, callsFrom, Instr.callsOf, Instr.declares, Instr.next, h4]
    obtain ⟨j, rfl, hk⟩ := key
    exact ⟨j, IsReg.getD ⟨rfl, b1⟩, hk⟩

/-- as `Can.mapB`, with an invariant of the declared functions and the calls -/
theorem Trk.mapB {body : α → Build PE} (I : ℕ → List Bool → (ℕ → List ℕ) → Prop) : ∀ {l : List α} {u : ℕ → E} {j : ℕ} {rr : RRegs E}
    {bs : List Bool} {v : ℕ → List ℕ}, I j bs v →
    (∀ a i rr' bs' v', l[i]? = some a → rr.Prefix rr' → I (j + i) bs' v' → Trk W D SR env (body a) rr' bs'
      fun b rr'' bs'' v'' => IsPt W env rr'' b (u i) ∧ I (j + i + 1) bs'' fun k => v' k ++ v'' k) →
    Trk W D SR env (mapB body l) rr bs fun out rr' bs' v' => IsPts W env rr' out l.length u ∧ I (j + l.length) bs' fun k => v k ++ v' k
  | [], _, _, _, _, _, h, _ => .ret ⟨.nil, by simpa using h⟩
  | a :: l, u, j, rr, bs, v, h, hb => (hb a 0 rr bs v rfl .rfl h).andThen fun b rr' bs' v' hp ⟨h1, hs⟩ =>
      (Trk.mapB I (l := l) (u := fun i => u (i + 1)) hs fun a i rr'' bs'' v'' hi hp' h => by
        have := hb a (i + 1) rr'' bs'' v'' hi (hp.trans hp') (by rwa [show j + (i + 1) = j + 0 + 1 + i by omega])
        rwa [show j + (i + 1) + 1 = j + 0 + 1 + i + 1 by omega] at this).andThen fun out rr'' bs'' v'' hp' ⟨h2, ht⟩ =>
        .ret ⟨⟨by simp [h2.1], fun i e he => by
          cases i with
          | zero => simp at he; subst he; exact h1.mono hp'
          | succ i => exact h2.2 i e (by simpa using he)⟩, by
          rw [List.length_cons, show j + (l.length + 1) = j + 0 + 1 + l.length by omega]
          simpa [List.append_assoc] using ht⟩

set_option quotPrecheck false in
local notation "W0" => {n | n ∈ stdParams}

/-- `dual_decomposition` evaluates the function number `i` at `x_star` (twice), `x_1 i` and `x_1p5 i` -/
theorem trk_dualDecomposition {k : ℕ} {mu : ℚ} {L : Option ℚ} {Ind : ℚ} (hD : defDecl mu L = D) {x_star z1 z15 : E} {ys i1 x1 i15 x15 i2 : ℕ → E}
    {vs v1 v15 : ℕ → ℝ} (hs : ∀ i < k + 2, SR i x_star (ys i) (vs i)) (hys : ∑ i ∈ Finset.range (k + 2), ys i = 0)
    (hi1 : ∑ i ∈ Finset.range (k + 2), i1 i = 0) (h1 : ∀ i < k + 2, SR i (x1 i) (i1 i) (v1 i))
    (hz1 : z1 = (((k : ℚ) + 2 : ℚ) : ℝ)⁻¹ • ∑ i ∈ Finset.range (k + 2), x1 i)
    (hi15 : ∀ i < k + 2, i15 i = i1 i + (pAlpha * pH / Ind).eval env • (z1 - x1 i))
    (h15 : ∀ i < k + 2, SR i (x15 i) (i15 i) (v15 i))
    (hz15 : z15 = (((k : ℚ) + 2 : ℚ) : ℝ)⁻¹ • ∑ i ∈ Finset.range (k + 2), x15 i)
    (hi2 : ∀ i < k + 2, i2 i = i1 i + (pBeta * pH / Ind).eval env • (z1 - x1 i) + ((1 - pBeta) * pH / Ind).eval env • (z15 - x15 i)) :
    Trk W0 D SR env (dualDecomposition k mu L Ind) (RRegs.empty E) [] fun _ rr bs c => (∃ v, rr.metric = some v) ∧ bs.count true = k + 2 ∧
      ∃ j0, At rr j0 x_star ∧ ∀ i < k + 2, ∃ a b, c i = [j0, j0, a, b] ∧ At rr a (x1 i) ∧ At rr b (x15 i) := by
  have hk : ((k : ℚ) + 2) ≠ 0 := by positivity
  unfold dualDecomposition
  refine Trk.bind (.defineSum hD _ rfl rfl) ?_
  rintro ⟨fs, f⟩ r1 bs c0 - ⟨hfs, hf, hsum, hc0⟩
  dsimp only at hfs hf hsum ⊢
  obtain ⟨rg, hr1, -, hr2⟩ := hsum.reg
  have hl : fs.length = k + 2 := hfs.1
  refine Trk.bind (.stationary hr1 hr2 hf (by rw [← hys]; exact sumSample_range hs)) ?_
  rintro ⟨xs, y, fst⟩ r bs c1 p ⟨⟨j0, hxs, hc1⟩, -, rfl⟩
  dsimp only at hxs ⊢
  up p at hfs
  refine Trk.bind (Trk.mapB (fun t bs' c => bs' = bs ∧ ∀ q, c q = if q < t then [j0] else []) (u := ys) (j := 0) (v := fun _ => [])
    ⟨rfl, by simp⟩ ?_) ?_
  · rintro f i r bs c hi p ⟨rfl, hc⟩
    simp only [zero_add] at *
    refine Trk.bind (.oracle (hsum.decl i _ hi) (hfs.mono p |>.2 i _ hi) (hxs.mono p) (smp (hs i (lt_of_get hi hl)))) ?_
    rintro ⟨g, w⟩ r bs2 c2 p ⟨b1, rfl, b3⟩
    refine .ret ⟨b1, rfl, fun q => ?_⟩
    simp only [hc, b3, List.append_nil]
    by_cases h1 : q < i
    · rw [if_pos h1, if_neg (by omega), if_pos (by omega)]; rfl
    · by_cases h2 : i = q
      · rw [if_neg h1, if_pos h2, if_pos (by omega)]; rfl
      · rw [if_neg h1, if_neg h2, if_neg (by omega)]; rfl
  rintro ystar r bs c2 p ⟨hy, rfl, hc2⟩
  rw [hl, zero_add] at hc2
  rw [hl] at hy
  simp only [List.nil_append] at hc2
  up p at hfs hxs
  refine Trk.bind (Trk.loop (fun j s r bs' c => (IsPts W0 env r s.1.1 j i1 ∧ IsOpt W0 env r s.1.2 j (- ∑ i ∈ Finset.range j, i1 i) ∧
    IsPts W0 env r s.2.1 j x1 ∧ IsOpt W0 env r s.2.2 j (∑ i ∈ Finset.range j, x1 i)) ∧ bs' = bs ∧
    (∀ q < j, ∃ a, c q = [a] ∧ At r a (x1 q)) ∧ ∀ q, j ≤ q → c q = []) (j := 0) (v := fun _ => [])
    ⟨⟨.nil, by simp [IsOpt], .nil, by simp [IsOpt]⟩, rfl, by simp, by simp⟩ ?_) ?_
  · rintro s f i r bs c hi p ⟨⟨a1, a2, a3, a4⟩, rfl, hc, hc'⟩
    have hi := dropLast_get hi
    have hlt := lt_of_get hi hl
    up p at hfs
    simp only [zero_add] at *
    unfold dualInitStep
    refine Trk.bind (.initial (i1 i)) ?_
    rintro yi r bs d1 p ⟨⟨-, -, b1⟩, rfl, e1⟩
    have hc : ∀ q < i, ∃ a, c q = [a] ∧ At r a (x1 q) := fun q hq => by obtain ⟨a, h1, h2⟩ := hc q hq; exact ⟨a, h1, h2.mono p⟩
    up p at hfs a1 a2 a3 a4
    refine Trk.bind (Trk.quiet (.subFrom a2 b1) (QuietB.subFrom _ _)) ?_
    rintro last r bs d2 p ⟨b2, rfl, e2⟩
    have hc : ∀ q < i, ∃ a, c q = [a] ∧ At r a (x1 q) := fun q hq => by obtain ⟨a, h1, h2⟩ := hc q hq; exact ⟨a, h1, h2.mono p⟩
    up p at hfs a1 a3 a4 b1
    refine Trk.bind (.conj (hsum.decl i _ hi) (hfs.2 i f hi) b1 (smp (h1 i hlt))) ?_
    rintro xi r bs d3 p ⟨b3, rfl, j, hj, e3⟩
    have hc : ∀ q < i, ∃ a, c q = [a] ∧ At r a (x1 q) := fun q hq => by obtain ⟨a, h1, h2⟩ := hc q hq; exact ⟨a, h1, h2.mono p⟩
    up p at hfs a1 a3 a4 b1 b2
    refine Trk.bind (Trk.quiet (.addTo a4 b3) (QuietB.addTo _ _)) ?_
    rintro z r bs d4 p ⟨b4, rfl, e4⟩
    have hc : ∀ q < i, ∃ a, c q = [a] ∧ At r a (x1 q) := fun q hq => by obtain ⟨a, h1, h2⟩ := hc q hq; exact ⟨a, h1, h2.mono p⟩
    up p at a1 a3 b1 b2 b3 hj
    refine .ret ⟨⟨a1.append b1, ?_, a3.append b3, ?_⟩, rfl, fun q hq => ?_, fun q hq => ?_⟩
    · rw [Finset.sum_range_succ, neg_add, ← sub_eq_add_neg]; exact b2
    · rw [Finset.sum_range_succ]; exact b4
    · simp only [e1, e2, e3, e4, List.append_nil, List.nil_append]
      by_cases hqi : i = q
      · subst hqi; exact ⟨j, by simp [hc' i le_rfl], hj⟩
      · obtain ⟨a, ha, hb⟩ := hc q (by omega)
        exact ⟨a, by simp [ha, hqi], hb⟩
    · simp only [e1, e2, e3, e4, List.append_nil, List.nil_append]
      rw [hc' q (by omega), if_neg (by omega)]; rfl
  rintro ⟨⟨iL, last⟩, xs', z⟩ r bs c3 p ⟨⟨a1, a2, a3, a4⟩, rfl, hc3, hc3'⟩
  simp only [List.length_dropLast, hl, zero_add, show k + 2 - 1 = k + 1 by omega, List.nil_append] at a1 a2 a3 a4 hc3 hc3' ⊢
  up p at hfs hxs hy
  have hlast : IsPt W0 env r (last.getD (.reg 0)) (i1 (k + 1)) := by
    have := a2.getD (by omega)
    rw [Finset.sum_range_succ] at hi1
    rwa [neg_eq_of_add_eq_zero_right hi1] at this
  have hgl := getLastD_get hl (.reg 0)
  refine Trk.bind (.conj (hsum.decl (k + 1) _ hgl) (hfs.2 (k + 1) _ hgl) hlast (smp (h1 (k + 1) (by omega)))) ?_
  rintro xl r bs c4 p ⟨b1, rfl, jl, hjl, hc4⟩
  have hc34 : ∀ q < k + 2, ∃ a, c3 q ++ c4 q = [a] ∧ At r a (x1 q) := by
    intro q hq
    by_cases hqk : q < k + 1
    · obtain ⟨a, ha, hb⟩ := hc3 q hqk
      exact ⟨a, by rw [ha, hc4, if_neg (by omega)]; rfl, hb.mono p⟩
    · obtain rfl : q = k + 1 := by omega
      exact ⟨jl, by rw [hc3' _ le_rfl, hc4]; simp, hjl⟩
  clear hc3 hc3' hc4 hjl
  up p at hfs hxs hy a1 a3 a4 hlast
  refine Trk.bind (Trk.quiet (.addTo a4 b1) (QuietB.addTo _ _)) ?_
  rintro z' r bs c5 p ⟨b2, rfl, hc5⟩
  have hc34 : ∀ q < k + 2, ∃ a, c3 q ++ c4 q = [a] ∧ At r a (x1 q) := fun q hq => by obtain ⟨a, h1, h2⟩ := hc34 q hq; exact ⟨a, h1, h2.mono p⟩
  up p at hfs hxs hy a1 a3 hlast b1
  rw [← Finset.sum_range_succ] at b2
  refine Trk.bind (.pt (b2.div hk)) ?_
  rintro z_1 r bs c6 p ⟨⟨-, -, b3⟩, rfl, hc6⟩
  have hc34 : ∀ q < k + 2, ∃ a, c3 q ++ c4 q = [a] ∧ At r a (x1 q) := fun q hq => by obtain ⟨a, h1, h2⟩ := hc34 q hq; exact ⟨a, h1, h2.mono p⟩
  up p at hfs hxs hy a1 a3 hlast b1
  rw [← hz1] at b3
  have d1 := a1.append hlast
  have d3 := a3.append b1
  generalize iL ++ [last.getD (.reg 0)] = i_1 at *
  generalize xs' ++ [xl] = x_1 at *
  clear a1 a3 hlast b1 b2
  have e1 : (i_1.zip x_1).length = k + 2 := by simp [d1.1, d3.1]
  refine Trk.bind (Trk.quiet (Can.mapB (v := i15) fun a i r hi p => ?_) (QuietB.mapB (fun _ => .pt _) _)) ?_
  · have hl := lt_of_get hi e1
    obtain ⟨ha, hb⟩ := zip_get hi
    rw [hi15 i hl]
    exact .pt (((d1.2 i _ ha).add (.smul (by simp [stdParams]) (b3.sub (d3.2 i _ hb)))).mono p)
  rintro i_15 r bs c7 p ⟨d4, rfl, hc7⟩
  rw [e1] at d4
  have hc34 : ∀ q < k + 2, ∃ a, c3 q ++ c4 q = [a] ∧ At r a (x1 q) := fun q hq => by obtain ⟨a, h1, h2⟩ := hc34 q hq; exact ⟨a, h1, h2.mono p⟩
  up p at hfs hxs hy d1 d3 b3
  have e2 : (i_15.zip fs).length = k + 2 := by simp [d4.1, hfs.1]
  refine Trk.bind (Trk.loop (fun j s r bs' c => (IsPts W0 env r s.1 j x15 ∧ IsOpt W0 env r s.2 j (∑ i ∈ Finset.range j, x15 i)) ∧ bs' = bs ∧
    (∀ q < j, ∃ a, c q = [a] ∧ At r a (x15 q)) ∧ ∀ q, j ≤ q → c q = []) (j := 0) (v := fun _ => [])
    ⟨⟨.nil, by simp [IsOpt]⟩, rfl, by simp, by simp⟩ ?_) ?_
  · rintro s a i r bs c hi p ⟨⟨a1, a2⟩, rfl, hc, hc'⟩
    have hlt := lt_of_get hi e2
    obtain ⟨ha, hb⟩ := zip_get hi
    up p at hfs d4
    simp only [zero_add] at *
    unfold conjStep
    refine Trk.bind (.conj (hsum.decl i _ hb) (hfs.2 i _ hb) (d4.2 i _ ha) (smp (h15 i hlt))) ?_
    rintro xi r bs d3 p ⟨b3, rfl, j, hj, e3⟩
    have hc : ∀ q < i, ∃ a, c q = [a] ∧ At r a (x15 q) := fun q hq => by obtain ⟨a, h1, h2⟩ := hc q hq; exact ⟨a, h1, h2.mono p⟩
    up p at a1 a2
    refine Trk.bind (Trk.quiet (.addTo a2 b3) (QuietB.addTo _ _)) ?_
    rintro z r bs d4 p ⟨b4, rfl, e4⟩
    have hc : ∀ q < i, ∃ a, c q = [a] ∧ At r a (x15 q) := fun q hq => by obtain ⟨a, h1, h2⟩ := hc q hq; exact ⟨a, h1, h2.mono p⟩
    up p at a1 b3 hj
    refine .ret ⟨⟨a1.append b3, ?_⟩, rfl, fun q hq => ?_, fun q hq => ?_⟩
    · rw [Finset.sum_range_succ]; exact b4
    · simp only [e3, e4, List.append_nil]
      by_cases hqi : i = q
      · subst hqi; exact ⟨j, by simp [hc' i le_rfl], hj⟩
      · obtain ⟨a, ha, hb⟩ := hc q (by omega)
        exact ⟨a, by simp [ha, hqi], hb⟩
    · simp only [e3, e4, List.append_nil]
      rw [hc' q (by omega), if_neg (by omega)]; rfl
  rintro ⟨x_15, z⟩ r bs c8 p ⟨⟨d5, d6⟩, rfl, hc8, -⟩
  simp only [e2, zero_add, List.nil_append] at d5 d6 hc8 ⊢
  have hc34 : ∀ q < k + 2, ∃ a, c3 q ++ c4 q = [a] ∧ At r a (x1 q) := fun q hq => by obtain ⟨a, h1, h2⟩ := hc34 q hq; exact ⟨a, h1, h2.mono p⟩
  up p at hxs hy d1 d3 b3
  refine Trk.mono (Trk.quiet (Q := fun _ rr => r.Prefix rr ∧ ∃ v, rr.metric = some v) ?_ ?_) ?_
  · suffices h : Can W0 D SR env _ r fun _ rr => ∃ v, rr.metric = some v from Can.mono h fun _ _ p h => ⟨p, h⟩
    refine Can.bind (.pt ((d6.getD (by omega)).div hk)) fun z_15 r10 p d7 => ?_
    rw [← hz15] at d7
    up p at hxs hy d1 d3 b3 d5
    have e3 : (i_1.zip (x_1.zip x_15)).length = k + 2 := by simp [d1.1, d3.1, d5.1]
    refine Can.bind (Can.mapB (v := i2) fun a i r hi p => ?_) ?_
    · have hl := lt_of_get hi e3
      obtain ⟨ha, hb⟩ := zip_get hi
      obtain ⟨hb, hc⟩ := zip_get hb
      rw [hi2 i hl]
      exact .pt ((((d1.2 i _ ha).add (.smul (by simp [stdParams]) (b3.sub (d3.2 i _ hb)))).add
        (.smul (by simp [stdParams]) (d7.sub (d5.2 i _ hc)))).mono p)
    intro i_2 r11 p g1
    rw [e3] at g1
    up p at hxs hy d1 d3
    have e4 : ((i_1.zip i_2).zip (x_1.zip ystar)).length = k + 2 := by simp [d1.1, d3.1, g1.1, hy.1]
    refine Can.bind (Can.loop (fun j s r => IsOptEx W0 env r s.1 j (∑ i ∈ Finset.range j, ((Ind / 2 : ℚ) : ℝ) * ‖i1 i - ys i‖ ^ 2) ∧
      IsOptEx W0 env r s.2.1 j (∑ i ∈ Finset.range j, ((Ind / 2 : ℚ) : ℝ) * ‖i2 i - ys i‖ ^ 2) ∧
      IsOptEx W0 env r s.2.2 j (∑ i ∈ Finset.range j, pEta.eval env * ⟪x1 i - x_star, i1 i - ys i⟫_ℝ)) (j := 0)
      ⟨by simp [IsOptEx], by simp [IsOptEx], by simp [IsOptEx]⟩ ?_) ?_
    · rintro s a i r hi p ⟨a1, a2, a3⟩
      obtain ⟨ha, hb⟩ := zip_get hi
      obtain ⟨ha, ha'⟩ := zip_get ha
      obtain ⟨hb, hb'⟩ := zip_get hb
      up p at hxs hy d1 d3 g1
      simp only [zero_add] at *
      unfold dualEnergyStep
      refine Can.bind (.addEx a1 (((d1.2 i _ ha).sub (hy.2 i _ hb')).sq.qmul)) fun E1 r p b1 => ?_
      up p at hxs hy d1 d3 g1 a2 a3
      refine Can.bind (.addEx a2 (((g1.2 i _ ha').sub (hy.2 i _ hb')).sq.qmul)) fun E1 r p b2 => ?_
      up p at hxs hy d1 d3 g1 a3 b1
      refine Can.bind (.addEx a3 (((((d3.2 i _ hb).sub hxs.2)).inner ((d1.2 i _ ha).sub (hy.2 i _ hb'))).smul (by simp [stdParams]))) fun E1 r p b3 => ?_
      up p at b1 b2
      refine .pure ⟨?_, ?_, ?_⟩ <;> rw [Finset.sum_range_succ] <;> assumption
    rintro ⟨E1, E2, D1⟩ r12 p ⟨a1, a2, a3⟩
    rw [e4, zero_add] at a1 a2 a3
    exact Can.bind (.finishMetric (a1.getD (by omega)) (a2.getD (by omega)) (a3.getD (by omega))) fun _ _ _ h => .pure ⟨_, h⟩
  · refine QuietB.bind (.pt _) fun _ => .bind (.mapB (fun _ => .pt _) _) fun _ => .bind (.loop (fun _ _ => .dualEnergyStep _ _ _ _) _ _) ?_
    rintro ⟨_, _, _⟩
    exact .bind (.finishMetric _ _ _) fun _ => .pure _
  · rintro e r bs c9 p ⟨⟨p', hm⟩, rfl, hc9⟩
    refine ⟨hm, hsum.count, j0, At.mono hxs.getD p', fun i hi => ?_⟩
    obtain ⟨a, ha, ha'⟩ := hc34 i hi
    obtain ⟨b, hb, hb'⟩ := hc8 i hi
    refine ⟨a, b, ?_, ha'.mono p', hb'.mono p'⟩
    rw [hc0, hc1 i hi, hc2, if_pos hi, hc5, hc6, hc7, hb, hc9]
    simp only [List.nil_append, List.append_nil, ← List.append_assoc]
    rw [List.append_assoc _ (c3 i), ha]
    rfl

end Verif
