import Verif.Proofs.TrackLogic
import Verif.Props.CompleteCircuits

/-!
# The runs of `primal_decomposition` with any number of functions
-/

namespace Verif
open Build Heap
open scoped InnerProductSpace

variable {E : Type} [NormedAddCommGroup E] [InnerProductSpace ℝ E] {D : FnDecl} {SR : ℕ → E → E → ℝ → Prop} {env : Name → ℝ} {rr : RRegs E} {bs : List Bool}

set_option quotPrecheck false in
local notation "W0" => {n | n ∈ stdParams}

theorem trk_gradSum {f : List FE} {m j : ℕ} {x : PE} {u : E} {y : ℕ → E} {v : ℕ → ℝ} (hF : IsFns rr f m fun i => Finsupp.single i 1)
    (hd : ∀ i e, f[i]? = some e → IsDecl bs e i) (hx : IsReg W0 env rr x j u) (hs : ∀ i < m, SR i u (y i) (v i)) :
    Trk W0 D SR env (loop (gradSumStep x) f none) rr bs fun s r bs' c => IsOpt W0 env r s m (∑ i ∈ Finset.range m, y i) ∧ bs' = bs ∧
      ∀ k < m, c k = [j] := by
  have hl : f.length = m := hF.1
  refine (Trk.loop (fun t s r bs' c => IsOpt W0 env r s t (∑ i ∈ Finset.range t, y i) ∧ bs' = bs ∧ ∀ k, c k = if k < t then [j] else [])
    (j := 0) (v := fun _ => []) ⟨by simp [IsOpt], rfl, by simp⟩ ?_).mono fun s r bs' c p h => by
    rw [hl, zero_add] at h
    exact ⟨h.1, h.2.1, fun k hk => by have := h.2.2 k; rw [if_pos hk] at this; simpa using this⟩
  rintro s a i r bs' c hi p ⟨h, rfl, hc⟩
  replace hF := hF.mono p
  replace hx := hx.mono p
  simp only [zero_add] at *
  unfold gradSumStep
  refine Trk.bind (.oracle (hd i _ hi) (hF.2 i _ hi) hx (smp (hs i (lt_of_get hi hl)))) ?_
  rintro ⟨g, w⟩ r bs2 c2 p ⟨b1, rfl, b3⟩
  replace h := h.mono p
  refine Trk.bind (Trk.quiet (.addTo h b1) (QuietB.addTo _ _)) ?_
  rintro z r bs3 c3 p ⟨b2, rfl, b4⟩
  refine .ret ⟨?_, rfl, fun k => ?_⟩
  · rw [Finset.sum_range_succ]; exact b2
  · simp only [hc, b3, b4, List.append_nil]
    by_cases h1 : k < i
    · rw [if_pos h1, if_neg (by omega), if_pos (by omega)]; rfl
    · by_cases h2 : i = k
      · rw [if_neg h1, if_pos h2, if_pos (by omega)]; rfl
      · rw [if_neg h1, if_neg h2, if_neg (by omega)]; rfl

/-- `primal_decomposition` evaluates every function at the points `x_star`, `z_1`, `z_1p5` -/
theorem trk_primalDecomposition {k : ℕ} {mu : ℚ} {L : Option ℚ} {Cap : ℚ} (hD : defDecl mu L = D) {x_star z1 z15 : E} {ys y1 y15 : ℕ → E}
    {vs v1 v15 : ℕ → ℝ} (hs : ∀ i < k + 1, SR i x_star (ys i) (vs i)) (hys : ∑ i ∈ Finset.range (k + 1), ys i = 0)
    (h1 : ∀ i < k + 1, SR i z1 (y1 i) (v1 i))
    (hz15 : z15 = z1 - (pAlpha * pH / Cap).eval env • ∑ i ∈ Finset.range (k + 1), y1 i)
    (h15 : ∀ i < k + 1, SR i z15 (y15 i) (v15 i)) :
    Trk W0 D SR env (primalDecomposition k mu L Cap) (RRegs.empty E) [] fun _ rr bs c => (∃ v, rr.metric = some v) ∧ bs.count true = k + 1 ∧
      ∃ j0 j1 j2, (∀ i < k + 1, c i = [j0, j1, j2]) ∧ (j0 < rr.pts.length ∧ rr.pts.getD j0 0 = x_star) ∧
        (j1 < rr.pts.length ∧ rr.pts.getD j1 0 = z1) ∧ (j2 < rr.pts.length ∧ rr.pts.getD j2 0 = z15) := by
  unfold primalDecomposition
  refine Trk.bind (.defineSum hD _ rfl rfl) ?_
  rintro ⟨fs, f⟩ r1 bs c0 - ⟨hfs, hf, hsum, hc0⟩
  dsimp only at hfs hf hsum ⊢
  obtain ⟨rg, hr1, -, hr2⟩ := hsum.reg
  refine Trk.bind (.stationary hr1 hr2 hf (by rw [← hys]; exact sumSample_range hs)) ?_
  rintro ⟨xs, y, fst⟩ r bs' c1 p ⟨⟨j0, hxs, hc1⟩, hy, rfl⟩
  dsimp only at hxs hy ⊢
  replace hfs := hfs.mono p
  refine Trk.bind (.initial z1) ?_
  rintro z_1 r bs' c2 p ⟨⟨j1, a1⟩, rfl, hc2⟩
  replace hfs := hfs.mono p; replace hxs := hxs.mono p; replace hy := hy.mono p
  refine Trk.bind (trk_gradSum hfs hsum.decl a1 h1) ?_
  rintro s r bs' c3 p ⟨a2, rfl, hc3⟩
  replace a2 := a2.getD (by omega)
  replace hfs := hfs.mono p; replace hxs := hxs.mono p; replace hy := hy.mono p; replace a1 := a1.mono p
  generalize s.getD (.reg 0) = sum1 at *
  refine Trk.bind (.pt (a1.2.sub (a2.smul (by simp [stdParams])))) ?_
  rintro z_15 r bs' c4 p ⟨⟨j2, a3⟩, rfl, hc4⟩
  rw [← hz15] at a3
  replace hfs := hfs.mono p; replace hxs := hxs.mono p; replace hy := hy.mono p; replace a1 := a1.mono p; replace a2 := a2.mono p
  refine Trk.bind (trk_gradSum hfs hsum.decl a3 h15) ?_
  rintro s r bs' c5 p ⟨a4, rfl, hc5⟩
  replace a4 := a4.getD (by omega)
  replace hxs := hxs.mono p; replace hy := hy.mono p; replace a1 := a1.mono p; replace a2 := a2.mono p; replace a3 := a3.mono p
  generalize s.getD (.reg 0) = sum15 at *
  refine Trk.mono (Trk.quiet (Q := fun _ rr => (∃ v, rr.metric = some v) ∧ IsReg W0 env rr xs j0 x_star ∧ IsReg W0 env rr z_1 j1 z1 ∧
    IsReg W0 env rr z_15 j2 z15) ?_ ?_) ?_
  · refine Can.bind (.pt ((a1.2.sub (a2.smul (by simp [stdParams]))).sub (a4.smul (by simp [stdParams])))) fun z_2 r p a5 => ?_
    replace hxs := hxs.mono p; replace hy := hy.mono p; replace a1 := a1.mono p; replace a2 := a2.mono p; replace a3 := a3.mono p
    refine Can.bind (.ex ((a1.2.sub hxs.2).sq.qmul)) fun E_1 r p b1 => ?_
    replace hxs := hxs.mono p; replace hy := hy.mono p; replace a1 := a1.mono p; replace a2 := a2.mono p; replace a3 := a3.mono p; replace a5 := a5.mono p
    refine Can.bind (.ex ((a5.sub hxs.2).sq.qmul)) fun E_2 r p b2 => ?_
    replace hxs := hxs.mono p; replace hy := hy.mono p; replace a1 := a1.mono p; replace a2 := a2.mono p; replace a3 := a3.mono p; replace b1 := b1.mono p
    refine Can.bind (.ex (((a1.2.sub hxs.2).inner (a2.sub hy)).smul (by simp [stdParams]))) fun D_1 r p b3 => ?_
    replace hxs := hxs.mono p; replace a1 := a1.mono p; replace a3 := a3.mono p; replace b1 := b1.mono p; replace b2 := b2.mono p
    exact (Can.finishMetric b1 b2 b3).mono fun _ _ p h => ⟨⟨_, h⟩, hxs.mono p, a1.mono p, a3.mono p⟩
  · exact QuietB.bind (.pt _) fun _ => .bind (.ex _) fun _ => .bind (.ex _) fun _ => .bind (.ex _) fun _ => .finishMetric _ _ _
  · rintro e r bs' c6 p ⟨⟨b1, b2, b3, b4⟩, rfl, b6⟩
    exact ⟨b1, hsum.count, j0, j1, j2, fun i hi => by simp [hc0, hc1 i hi, hc2, hc3 i hi, hc4, hc5 i hi, b6], b2.getD, b3.getD, b4.getD⟩

end Verif
