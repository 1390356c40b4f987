import Verif.Proofs.CanLogic
import Verif.Proofs.Robust
import Verif.Proofs.VerificationCircuits

/-!
# Guarantees with smaller weights of the dissipation
-/

namespace Verif
open scoped InnerProductSpace

section
variable {E : Type} [NormedAddCommGroup E] [InnerProductSpace ℝ E] {SR : ℕ → E → E → ℝ → Prop}

theorem Exec.split {env : Name → ℝ} {b : List Instr} : ∀ (a : List Instr) {r r' : RRegs E}, Exec SR env (a ++ b) r r' → ∃ r1, Exec SR env a r r1 ∧ Exec SR env b r1 r'
  | [], r, _, h => ⟨r, .nil _, h⟩
  | _ :: a, _, _, .cons s t => by
    obtain ⟨r1, h1, h2⟩ := Exec.split a t
    exact ⟨r1, .cons s h1, h2⟩

theorem safe_append {b : List Instr} : ∀ (a : List Instr) {n : Counts}, SafeProg (a ++ b) n = true → SafeProg a n = true ∧ SafeProg b (after a n) = true
  | [], _, h => ⟨rfl, h⟩
  | i :: a, n, h => by
    simp only [List.cons_append, SafeProg, Bool.and_eq_true] at h ⊢
    exact ⟨⟨h.1, (safe_append a h.2).1⟩, (safe_append a h.2).2⟩

/-- a sample and the value at another point -/
theorem CFun.Sample.le {F : CFun E} {x g y g' : E} {v w : ℝ} (h : F.Sample x g v) (h' : F.Sample y g' w) : 0 ≤ w - v - ⟪g, y - x⟫_ℝ := by
  have := h.2.2 y h'.1
  rw [h'.2.1] at this
  linarith

/-- subgradients are monotone -/
theorem CFun.Sample.mono {F : CFun E} {x g y g' : E} {v w : ℝ} (h : F.Sample x g v) (h' : F.Sample y g' w) : 0 ≤ ⟪y - x, g' - g⟫_ℝ := by
  have h1 := h.le h'
  have h2 := h'.le h
  rw [← neg_sub y x, inner_neg_right] at h2
  rw [real_inner_comm, inner_sub_left]
  linarith
end

/-- the parameters other than `eta` and `rho` -/
def others : Set Name := {n | n ≠ "eta" ∧ n ≠ "rho"}

/-- a program that ends with the dissipation `Delta` and the metric `E_2 - (E_1 - Delta)`, and uses `eta` and `rho` in `Delta` only: the guarantee at `p`
implies the guarantee at `q`, if the dissipation is not larger at `q` -/
theorem guaranteed_lower (pre : List Instr) {Δ : EE} {a b d m : ℕ} {p q : Name → ℝ}
    (hs : SafeProg (pre ++ [.ex Δ, .ex (.sub (.reg b) (.sub (.reg a) (.reg d))), .metric m]) ⟨0, 0, 0⟩ = true)
    (hd : d = (after pre ⟨0, 0, 0⟩).ne) (hm : m = d + 1) (ha : a < d) (hb : b < d) (hc : ∀ i ∈ pre, i.Clean others) (hpq : ∀ n ∈ others, p n = q n)
    (key : ∀ {E : Type} [NormedAddCommGroup E] [InnerProductSpace ℝ E] (fs : ℕ → CFun E) (V : Vals E), MeetsAll (fun k => (fs k).Sample) q V pre ⟨0, 0, 0⟩ 0 →
      Δ.val q V ≤ Δ.val p V)
    (h : Guaranteed (pre ++ [.ex Δ, .ex (.sub (.reg b) (.sub (.reg a) (.reg d))), .metric m]) p) :
    Guaranteed (pre ++ [.ex Δ, .ex (.sub (.reg b) (.sub (.reg a) (.reg d))), .metric m]) q := by
  intro E _ _ fs hf rr hx hcons v hv
  obtain ⟨hs1, hs2⟩ := safe_append pre hs
  obtain ⟨r1, e1, e2⟩ := Exec.split pre hx
  have hlen : r1.exs.length = d := by rw [hd]; exact congrArg Counts.ne (exec_counts e1)
  have hcnt : r1.counts = after pre ⟨0, 0, 0⟩ := exec_counts e1
  have hme := exec_meets e1 hs1 .rfl
  have hsafe : Δ.Safe r1.pts.length r1.exs.length = true := by
    simp only [SafeProg, Bool.and_eq_true, Instr.Safe] at hs2
    rw [← hcnt] at hs2
    exact hs2.1
  have hle := key fs r1.vals hme
  rw [EE.val_vals .rfl _ hsafe, EE.val_vals .rfl _ hsafe] at hle
  cases e2 with
  | cons s1 e2 =>
  cases s1 with
  | ex =>
  cases e2 with
  | cons s2 e2 =>
  cases s2 with
  | ex =>
  cases e2 with
  | cons s3 e2 =>
  cases s3 with
  | metric =>
  cases e2 with
  | nil =>
  have get : ∀ x : ℝ, EE.den q r1.pts (r1.exs ++ [x]) (.sub (.reg b) (.sub (.reg a) (.reg d))) = r1.exs.getD b 0 - (r1.exs.getD a 0 - x) := by
    intro x
    subst hlen
    simp [EE.den, List.getD, List.getElem?_append_left, ha, hb]
  have getp : ∀ x : ℝ, EE.den p r1.pts (r1.exs ++ [x]) (.sub (.reg b) (.sub (.reg a) (.reg d))) = r1.exs.getD b 0 - (r1.exs.getD a 0 - x) := by
    intro x
    subst hlen
    simp [EE.den, List.getD, List.getElem?_append_left, ha, hb]
  have last : ∀ x y : ℝ, (r1.exs ++ [x] ++ [y]).getD m 0 = y := by
    intro x y
    subst hm hlen
    simp [List.getD]
  have hx' := Exec.append (Exec.congr_env (V := others) (fun n hn => (hpq n hn).symm) hc e1)
    (.cons (Step.ex r1 Δ) (.cons (Step.ex _ (.sub (.reg b) (.sub (.reg a) (.reg d)))) (.cons (Step.metric _ m) (.nil _))))
  have := h fs hf _ hx' hcons _ rfl
  simp only at this hv
  rw [last, getp] at this
  rw [last, get] at hv
  injection hv with hv
  linarith

theorem guaranteed_lower_take {prog : List Instr} (k : ℕ) {Δ : EE} {a b d m : ℕ} {p q : Name → ℝ}
    (hdrop : prog.drop k = [.ex Δ, .ex (.sub (.reg b) (.sub (.reg a) (.reg d))), .metric m]) (hs : SafeProg prog ⟨0, 0, 0⟩ = true)
    (hd : d = (after (prog.take k) ⟨0, 0, 0⟩).ne) (hm : m = d + 1) (ha : a < d) (hb : b < d) (hc : ∀ i ∈ prog.take k, i.Clean others)
    (hpq : ∀ n, n ≠ "eta" → n ≠ "rho" → p n = q n)
    (key : ∀ {E : Type} [NormedAddCommGroup E] [InnerProductSpace ℝ E] (fs : ℕ → CFun E) (V : Vals E),
      MeetsAll (fun k => (fs k).Sample) q V (prog.take k) ⟨0, 0, 0⟩ 0 → Δ.val q V ≤ Δ.val p V) (h : Guaranteed prog p) : Guaranteed prog q := by
  have e := List.take_append_drop k prog
  rw [hdrop] at e
  rw [← e] at hs ⊢
  rw [← e] at h
  have hpq' : ∀ n ∈ others, p n = q n := fun n hn => hpq n hn.1 hn.2
  exact @guaranteed_lower (prog.take k) Δ a b d m p q hs hd hm ha hb hc hpq' key h

end Verif
