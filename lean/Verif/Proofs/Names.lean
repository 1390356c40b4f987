import Verif.Spec.Problem
import Std.Data.String.ToNat

namespace Verif

/-- decimal digits of a number -/
def digits (k : ℕ) : List Char := (Nat.repr k).toList

theorem digits_inj {a b : ℕ} (h : digits a = digits b) : a = b := Nat.repr_injective (String.toList_injective h)

theorem digits_isDigit {k : ℕ} {c : Char} (h : c ∈ digits k) : c.isDigit = true := by
  simp only [digits, Nat.repr_eq_ofList_toDigits, String.toList_ofList] at h
  exact Nat.isDigit_of_mem_toDigits (by decide) (by decide) h

theorem bar_notMem (k : ℕ) : '|' ∉ digits k := fun h => absurd (digits_isDigit h) (by decide)
theorem dot_notMem (k : ℕ) : '.' ∉ digits k := fun h => absurd (digits_isDigit h) (by decide)

theorem toString_toList (k : ℕ) : (toString k).toList = digits k := rfl

/-- the part of a multiplier name after its prefix -/
def idxChars (i j : ℕ) : List Char := '|' :: (digits i ++ '.' :: (digits j ++ ['|']))

theorem lambName_toList (k i j : ℕ) : (lambName k i j).toList = 'l' :: 'a' :: 'm' :: 'b' :: (digits k ++ idxChars i j) := by
  simp [lambName, idxChars, String.toList_append, digits]

theorem nuName_toList (k i j : ℕ) : (nuName k i j).toList = 'n' :: 'u' :: (digits k ++ idxChars i j) := by
  simp [nuName, idxChars, String.toList_append, digits]

theorem append_cons_inj {α : Type} {c : α} : ∀ {a a' b b' : List α}, c ∉ a → c ∉ a' → a ++ c :: b = a' ++ c :: b' → a = a' ∧ b = b' := by
  intro a
  induction a with
  | nil =>
    intro a' b b' _ h2 h
    cases a' with
    | nil => simpa using h
    | cons x a' =>
      simp only [List.nil_append, List.cons_append, List.cons.injEq] at h
      exact absurd (by simp [h.1]) h2
  | cons x a ih =>
    intro a' b b' h1 h2 h
    cases a' with
    | nil =>
      simp only [List.nil_append, List.cons_append, List.cons.injEq] at h
      exact absurd (by simp [← h.1]) h1
    | cons y a' =>
      simp only [List.cons_append, List.cons.injEq] at h
      obtain ⟨e1, e2⟩ := ih (fun hh => h1 (by simp [hh])) (fun hh => h2 (by simp [hh])) h.2
      exact ⟨by rw [h.1, e1], e2⟩

theorem idx_inj {k i j k' i' j' : ℕ} (h : digits k ++ idxChars i j = digits k' ++ idxChars i' j') : k = k' ∧ i = i' ∧ j = j' := by
  obtain ⟨h1, h2⟩ := append_cons_inj (bar_notMem k) (bar_notMem k') h
  obtain ⟨h3, h4⟩ := append_cons_inj (dot_notMem i) (dot_notMem i') h2
  obtain ⟨h5, -⟩ := append_cons_inj (bar_notMem j) (bar_notMem j') h4
  exact ⟨digits_inj h1, digits_inj h3, digits_inj h5⟩

theorem lambName_inj {k i j k' i' j' : ℕ} (h : lambName k i j = lambName k' i' j') : k = k' ∧ i = i' ∧ j = j' := by
  have := congrArg String.toList h
  rw [lambName_toList, lambName_toList] at this
  simp only [List.cons.injEq, true_and] at this
  exact idx_inj this

theorem nuName_inj {k i j k' i' j' : ℕ} (h : nuName k i j = nuName k' i' j') : k = k' ∧ i = i' ∧ j = j' := by
  have := congrArg String.toList h
  rw [nuName_toList, nuName_toList] at this
  simp only [List.cons.injEq, true_and] at this
  exact idx_inj this

theorem lambName_ne_nuName {k i j k' i' j' : ℕ} : lambName k i j ≠ nuName k' i' j' := by
  intro h
  have := congrArg String.toList h
  rw [lambName_toList, nuName_toList] at this
  simp at this

/-- different constraints have different multiplier symbols -/
theorem SpKey.name_inj {a k i j a' k' i' j' : ℕ} (ha : a ≤ 1) (ha' : a' ≤ 1)
    (h : (SpKey.tup a k i j).name = (SpKey.tup a' k' i' j').name) : SpKey.tup a k i j = SpKey.tup a' k' i' j' := by
  have h0 : a = 0 ∨ a = 1 := by omega
  have h0' : a' = 0 ∨ a' = 1 := by omega
  rcases h0 with rfl | rfl <;> rcases h0' with rfl | rfl
  · obtain ⟨rfl, rfl, rfl⟩ := lambName_inj h; rfl
  · exact absurd h lambName_ne_nuName
  · exact absurd h.symm lambName_ne_nuName
  · obtain ⟨rfl, rfl, rfl⟩ := nuName_inj h; rfl

end Verif
