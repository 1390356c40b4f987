import Verif.Model.Utils
import Verif.Spec.Utils
import Mathlib.LinearAlgebra.Matrix.NonsingularInverse
import Mathlib.Tactic.Linarith
import Mathlib.Tactic.Ring
import Mathlib.Tactic.NormNum

/-!
# Helpers for `grid_search` and `matrix_to_diff_psd`
-/

namespace Verif

theorem foldSum_none (l : List (Option ℝ)) : l.foldl (fun acc v => acc.bind fun a => v.map (a + ·)) (none : Option ℝ) = none := by
  induction l with
  | nil => rfl
  | cons a l ih => exact ih

theorem foldSum_iff (l : List (Option ℝ)) : ∀ a s : ℝ, l.foldl (fun acc v => acc.bind fun a => v.map (a + ·)) (some a) = some s ↔
    ∃ w : List ℝ, l = w.map some ∧ s = a + w.sum := by
  induction l with
  | nil =>
    intro a s
    constructor
    · intro h
      exact ⟨[], rfl, by simpa using (Option.some.inj h).symm⟩
    · rintro ⟨w, h1, h2⟩
      cases w with
      | nil => simp [h2]
      | cons => simp at h1
  | cons v l ih =>
    intro a s
    cases v with
    | none =>
      change l.foldl _ none = some s ↔ _
      rw [foldSum_none]
      constructor
      · intro h; cases h
      · rintro ⟨w, h1, -⟩
        cases w <;> simp at h1
    | some b =>
      change l.foldl _ (some (a + b)) = some s ↔ _
      rw [ih]
      constructor
      · rintro ⟨w, h1, h2⟩
        exact ⟨b :: w, by simp [h1], by simp [h2, add_assoc]⟩
      · rintro ⟨w, h1, h2⟩
        cases w with
        | nil => simp at h1
        | cons c w =>
          simp only [List.map_cons, List.cons.injEq, Option.some.injEq] at h1
          exact ⟨w, h1.2, by simp [h2, h1.1, add_assoc]⟩

theorem windowScore_some {start stop : ℕ} (hne : start ≠ stop) {r : List (Option ℝ)} {v : ℝ} : windowScore start stop r = .ok (some v) ↔
    ∃ w : List ℝ, (r.take stop).drop start = w.map some ∧ v = w.sum / ((stop : ℝ) - start) := by
  unfold windowScore
  dsimp only
  rw [if_neg (by omega)]
  simp only [Except.ok.injEq, Option.map_eq_some_iff, foldSum_iff, zero_add]
  constructor
  · rintro ⟨a, ⟨w, h1, h2⟩, h3⟩
    exact ⟨w, h1, by rw [← h3, h2]⟩
  · rintro ⟨w, h1, h2⟩
    exact ⟨_, ⟨w, h1, rfl⟩, h2.symm⟩

theorem windowScore_ok {start stop : ℕ} (hne : start ≠ stop) (r : List (Option ℝ)) : ∃ s, windowScore start stop r = .ok s := by
  unfold windowScore
  dsimp only
  rw [if_neg (by omega)]
  exact ⟨_, rfl⟩

variable {α : Type} {f : α → Except Err (List (Option ℝ))} {start stop : ℕ}

theorem windowAverage_iff (hne : start ≠ stop) {p : α} {r : List (Option ℝ)} (hr : f p = .ok r) {v : ℝ} :
    WindowAverage f start stop p v ↔ windowScore start stop r = .ok (some v) := by
  rw [windowScore_some hne]
  constructor
  · rintro ⟨r', w, h1, h2, h3⟩
    rw [hr] at h1
    cases h1
    exact ⟨w, h2, h3⟩
  · rintro ⟨w, h2, h3⟩
    exact ⟨r, w, hr, h2, h3⟩

theorem windowAverage_unique {p : α} {v w : ℝ} (h1 : WindowAverage f start stop p v) (h2 : WindowAverage f start stop p w) : v = w := by
  obtain ⟨r, a, h1, h3, rfl⟩ := h1
  obtain ⟨r', b, h2, h4, rfl⟩ := h2
  rw [h1] at h2
  cases h2
  rw [h3] at h4
  rw [List.map_injective_iff.2 (Option.some_injective ℝ) h4]

/-- what the loop returns, relative to the best parameter before it -/
theorem gridLoop_spec (hne : start ≠ stop) : ∀ (ps : List α) (best : Option (α × ℝ)), (∀ q ∈ ps, ∃ r, f q = .ok r) →
    ∃ b, gridLoop f start stop ps best = .ok b ∧
      ((b = best ∧ ∀ q ∈ ps, ∀ w, WindowAverage f start stop q w → ∃ p v, best = some (p, v) ∧ v ≤ w) ∨
       ∃ (i : ℕ) (p : α) (v : ℝ), b = some (p, v) ∧ ps[i]? = some p ∧ WindowAverage f start stop p v ∧ (∀ q w, best = some (q, w) → v < w) ∧
         ∀ (j : ℕ) (q : α) (w : ℝ), ps[j]? = some q → WindowAverage f start stop q w → v ≤ w ∧ (j < i → v < w)) := by
  intro ps
  induction ps with
  | nil => exact fun best _ => ⟨best, rfl, Or.inl ⟨rfl, fun _ h => by cases h⟩⟩
  | cons p ps ih =>
    intro best hok
    obtain ⟨r, hr⟩ := hok p List.mem_cons_self
    obtain ⟨s, hs⟩ := windowScore_ok hne r
    have hok' : ∀ q ∈ ps, ∃ r, f q = .ok r := fun q hq => hok q (List.mem_cons_of_mem _ hq)
    have hstep : gridLoop f start stop (p :: ps) best = gridLoop f start stop ps (gridUpdate p s best) := by
      rw [gridLoop, hr]
      simp only [bind, Except.bind, hs]
    rw [hstep]
    cases s with
    | none =>
      have hno : ∀ w, ¬ WindowAverage f start stop p w := fun w h => by
        rw [windowAverage_iff hne hr, hs] at h
        cases h
      obtain ⟨b, h1, h2⟩ := ih best hok'
      refine ⟨b, h1, ?_⟩
      rcases h2 with ⟨h3, h4⟩ | ⟨i, q, v, h3, h4, h5, h6, h7⟩
      · refine Or.inl ⟨h3, fun q hq w hw => ?_⟩
        rcases List.mem_cons.1 hq with rfl | hq
        · exact absurd hw (hno w)
        · exact h4 q hq w hw
      · refine Or.inr ⟨i + 1, q, v, h3, by simpa using h4, h5, h6, fun j q' w hj hw => ?_⟩
        cases j with
        | zero =>
          simp only [List.getElem?_cons_zero, Option.some.injEq] at hj
          subst hj
          exact absurd hw (hno w)
        | succ j =>
          rw [List.getElem?_cons_succ] at hj
          obtain ⟨h8, h9⟩ := h7 j q' w hj hw
          exact ⟨h8, fun h => h9 (by omega)⟩
    | some v =>
      have hav : WindowAverage f start stop p v := (windowAverage_iff hne hr).2 hs
      by_cases hup : ∀ q w, best = some (q, w) → v < w
      · obtain ⟨b, h1, h2⟩ := ih (some (p, v)) hok'
        have hb : gridUpdate p (some v) best = some (p, v) := by
          cases best with
          | none => rfl
          | some c => simp only [gridUpdate, hup c.1 c.2 rfl, if_true]
        rw [hb]
        refine ⟨b, h1, Or.inr ?_⟩
        rcases h2 with ⟨h3, h4⟩ | ⟨i, q, u, h3, h4, h5, h6, h7⟩
        · refine ⟨0, p, v, h3, rfl, hav, hup, fun j q w hj hw => ⟨?_, fun h => absurd h (by omega)⟩⟩
          cases j with
          | zero =>
            simp only [List.getElem?_cons_zero, Option.some.injEq] at hj
            subst hj
            exact (windowAverage_unique hav hw).le
          | succ j =>
            rw [List.getElem?_cons_succ] at hj
            obtain ⟨_, _, h8, h9⟩ := h4 q (List.mem_of_getElem? hj) w hw
            cases h8
            exact h9
        · have huv := h6 p v rfl
          refine ⟨i + 1, q, u, h3, by simpa using h4, h5, fun q' w' h => huv.trans (hup q' w' h), fun j q' w hj hw => ?_⟩
          cases j with
          | zero =>
            simp only [List.getElem?_cons_zero, Option.some.injEq] at hj
            subst hj
            rw [← windowAverage_unique hav hw]
            exact ⟨huv.le, fun _ => huv⟩
          | succ j =>
            rw [List.getElem?_cons_succ] at hj
            obtain ⟨h8, h9⟩ := h7 j q' w hj hw
            exact ⟨h8, fun h => h9 (by omega)⟩
      · push Not at hup
        obtain ⟨q0, w0, rfl, hle⟩ := hup
        simp only [gridUpdate, not_lt.2 hle, if_false]
        obtain ⟨b, h1, h2⟩ := ih (some (q0, w0)) hok'
        refine ⟨b, h1, ?_⟩
        rcases h2 with ⟨h3, h4⟩ | ⟨i, q, u, h3, h4, h5, h6, h7⟩
        · refine Or.inl ⟨h3, fun q hq w hw => ?_⟩
          rcases List.mem_cons.1 hq with rfl | hq
          · exact ⟨q0, w0, rfl, (windowAverage_unique hav hw) ▸ hle⟩
          · exact h4 q hq w hw
        · refine Or.inr ⟨i + 1, q, u, h3, by simpa using h4, h5, h6, fun j q' w hj hw => ?_⟩
          have huv := (h6 q0 w0 rfl).trans_le hle
          cases j with
          | zero =>
            simp only [List.getElem?_cons_zero, Option.some.injEq] at hj
            subst hj
            rw [← windowAverage_unique hav hw]
            exact ⟨huv.le, fun _ => huv⟩
          | succ j =>
            rw [List.getElem?_cons_succ] at hj
            obtain ⟨h8, h9⟩ := h7 j q' w hj hw
            exact ⟨h8, fun h => h9 (by omega)⟩

theorem gridLoop_ok_all : ∀ (ps : List α) (best b : Option (α × ℝ)), gridLoop f start stop ps best = .ok b → (∀ q ∈ ps, ∃ r, f q = .ok r) ∧
    (ps ≠ [] → start ≠ stop) := by
  intro ps
  induction ps with
  | nil => exact fun _ _ _ => ⟨fun _ h => (List.not_mem_nil h).elim, fun h => absurd rfl h⟩
  | cons p ps ih =>
    intro best b h
    rw [gridLoop] at h
    cases hr : f p with
    | error e => rw [hr] at h; cases h
    | ok r =>
      rw [hr] at h
      simp only [bind, Except.bind] at h
      cases hs : windowScore start stop r with
      | error e => rw [hs] at h; cases h
      | ok s =>
        rw [hs] at h
        have hne : start ≠ stop := by
          rintro rfl
          unfold windowScore at hs
          simp at hs
        refine ⟨fun q hq => ?_, fun _ => hne⟩
        rcases List.mem_cons.1 hq with rfl | hq
        · exact ⟨r, hr⟩
        · exact (ih _ _ h).1 q hq

end Verif
