import Verif.Model.Sdp
import Verif.Proofs.Dict

/-!
# The loop of the halving search
-/

namespace Verif

theorem Dict.set_set {α β : Type} [DecidableEq α] (d : Dict α β) (k : α) (v w : β) : (d.set k v).set k w = d.set k w := by
  have hh : (d.set k v).has k = true := by rw [Dict.has_iff, Dict.mem_keys_set]; exact Or.inr rfl
  rw [Dict.set, if_pos hh, Dict.set, Dict.set]
  by_cases hk : d.has k = true
  · rw [if_pos hk, if_pos hk, List.map_map]
    refine List.map_congr_left fun kv _ => ?_
    simp only [Function.comp]
    split <;> simp_all
  · rw [if_neg hk, if_neg hk, List.map_append]
    have hn : k ∉ d.keys := by rwa [Dict.has_iff] at hk
    congr 1
    · refine (List.map_congr_left fun kv hkv => ?_).trans (List.map_id d)
      have : kv.1 ≠ k := fun h => hn (h ▸ List.mem_map.2 ⟨kv, hkv, rfl⟩)
      simp [this]
    · simp

/-- the dictionary of iteration `t` -/
def etaAt (vals : Dict Name ℚ) (e0 : ℚ) (t : ℕ) : Dict Name ℚ := vals.set "eta" (e0 / 2 ^ t)

theorem bisectLoop_spec (solve : ℕ → Dict Name ℚ → SolveOutcome) (vals : Dict Name ℚ) (e0 : ℚ) : ∀ (n t : ℕ) (ps : Dict Name ℚ),
    (∀ w, ps.set "eta" w = vals.set "eta" w) →
    (∃ s, t ≤ s ∧ s < t + n ∧ bisectLoop solve n t ps (e0 / 2 ^ t) = (etaAt vals e0 s, e0 / 2 ^ s) ∧ solve s (etaAt vals e0 s) = .status "optimal" ∧
      ∀ u, t ≤ u → u < s → solve u (etaAt vals e0 u) ≠ .status "optimal") ∨
    ((∀ u, t ≤ u → u < t + n → solve u (etaAt vals e0 u) ≠ .status "optimal") ∧
      bisectLoop solve n t ps (e0 / 2 ^ t) = (if n = 0 then ps else etaAt vals e0 (t + n - 1), e0 / 2 ^ (t + n))) := by
  intro n
  induction n with
  | zero => intro t ps _; right; exact ⟨fun u h1 h2 => by omega, rfl⟩
  | succ n ih =>
    intro t ps hps
    have hset : ps.set "eta" (e0 / 2 ^ t) = etaAt vals e0 t := hps _
    have hhalf : e0 / 2 ^ t / 2 = e0 / 2 ^ (t + 1) := by rw [pow_succ, div_div]
    have hnext : ∀ w, (etaAt vals e0 t).set "eta" w = vals.set "eta" w := fun w => Dict.set_set _ _ _ _
    by_cases hopt : solve t (etaAt vals e0 t) = .status "optimal"
    · left
      refine ⟨t, le_rfl, by omega, ?_, hopt, fun u h1 h2 => by omega⟩
      simp only [bisectLoop]
      rw [hset, hopt]; simp
    · have hstep : bisectLoop solve (n + 1) t ps (e0 / 2 ^ t) = bisectLoop solve n (t + 1) (etaAt vals e0 t) (e0 / 2 ^ (t + 1)) := by
        simp only [bisectLoop]
        rw [hset, hhalf]
        cases hs : solve t (etaAt vals e0 t) with
        | raised => rfl
        | status s =>
          have : s ≠ "optimal" := fun h => hopt (by rw [hs, h])
          simp [this]
      rw [hstep]
      rcases ih (t + 1) (etaAt vals e0 t) hnext with ⟨s, h1, h2, h3, h4, h5⟩ | ⟨h1, h2⟩
      · left
        refine ⟨s, by omega, by omega, h3, h4, fun u hu1 hu2 => ?_⟩
        rcases Nat.eq_or_lt_of_le hu1 with rfl | hlt
        · exact hopt
        · exact h5 u hlt hu2
      · right
        refine ⟨fun u hu1 hu2 => ?_, ?_⟩
        · rcases Nat.eq_or_lt_of_le hu1 with rfl | hlt
          · exact hopt
          · exact h1 u hlt (by omega)
        · rw [h2]
          have e : t + 1 + n = t + (n + 1) := by omega
          rw [e]
          congr 1
          rw [if_neg (Nat.succ_ne_zero n)]
          split
          · subst_vars; rfl
          · rfl

end Verif
