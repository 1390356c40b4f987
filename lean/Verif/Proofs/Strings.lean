import Verif.Spec.Parsing

/-!
# Splitting, joining and sorting names
-/

namespace Verif

theorem joinU_cons_cons (a b : Name) (l : List Name) : joinU (a :: b :: l) = a ++ "_" ++ joinU (b :: l) := by
  apply String.toList_injective
  simp [joinU, List.intercalate, List.intersperse]

theorem joinU_singleton (a : Name) : joinU [a] = a := by
  apply String.toList_injective
  simp [joinU, List.intercalate, List.intersperse]

theorem splitU_append (a b : Name) : splitU (a ++ "_" ++ b) = splitU a ++ splitU b := by
  have : (a ++ "_" ++ b).toList = a.toList ++ '_' :: b.toList := by simp
  rw [splitU, this, List.splitOn_append_cons_self, List.map_append]; rfl

theorem splitU_join : ∀ (l : List Name), l ≠ [] → splitU (joinU l) = l.flatMap splitU
  | [], h => absurd rfl h
  | [a], _ => by rw [joinU_singleton]; simp
  | a :: b :: l, _ => by
    rw [joinU_cons_cons, splitU_append, splitU_join (b :: l) (by simp)]; simp

theorem splitU_plain {n : Name} (h : Plain n) : splitU n = [n] := by
  rw [splitU, List.splitOn_eq_singleton h]; simp

theorem flatMap_splitU_plain {l : List Name} (h : ∀ n ∈ l, Plain n) : l.flatMap splitU = l := by
  induction l with
  | nil => rfl
  | cons a l ih => rw [List.flatMap_cons, splitU_plain (h a (by simp)), ih fun n hn => h n (by simp [hn])]; rfl

theorem splitU_join_plain {l : List Name} (hne : l ≠ []) (h : ∀ n ∈ l, Plain n) : splitU (joinU l) = l := by
  rw [splitU_join l hne, flatMap_splitU_plain h]

theorem joinU_inj {l l' : List Name} (hne : l ≠ []) (hne' : l' ≠ []) (h : ∀ n ∈ l, Plain n) (h' : ∀ n ∈ l', Plain n)
    (e : joinU l = joinU l') : l = l' := by
  rw [← splitU_join_plain hne h, e, splitU_join_plain hne' h']

theorem splitU_ne_nil (n : Name) : splitU n ≠ [] := by simp [splitU, List.splitOn_ne_nil]

theorem joinU_concat {l : List Name} (hne : l ≠ []) (a : Name) : joinU (l ++ [a]) = joinU l ++ "_" ++ a := by
  induction l with
  | nil => exact absurd rfl hne
  | cons b l ih =>
    cases l with
    | nil => rw [joinU_singleton]; show joinU [b, a] = _; rw [joinU_cons_cons, joinU_singleton]
    | cons c l =>
      rw [List.cons_append, List.cons_append, joinU_cons_cons, joinU_cons_cons]
      have := ih (by simp)
      rw [List.cons_append] at this
      rw [this]
      apply String.toList_injective
      simp

theorem splitOn_notMem (s : List Char) : ∀ p ∈ s.splitOn '_', '_' ∉ p := by
  induction s with
  | nil => simp
  | cons x s ih =>
    rw [List.splitOn_cons_eq_if_modifyHead]
    split
    · simpa using ih
    · rename_i hx
      intro p hp
      cases hs : s.splitOn '_' with
      | nil => exact absurd hs (List.splitOn_ne_nil _ _)
      | cons a t =>
        rw [hs] at hp ih
        simp only [List.modifyHead_cons, List.mem_cons] at hp
        rcases hp with rfl | hp
        · have := ih a (by simp)
          simp only [List.mem_cons, not_or]
          exact ⟨fun hh => hx (by simp [← hh]), this⟩
        · exact ih p (by simp [hp])

theorem splitU_parts (n : Name) : ∀ p ∈ splitU n, Plain p := by
  intro p hp
  obtain ⟨q, hq, rfl⟩ := List.mem_map.1 hp
  simpa [Plain] using splitOn_notMem _ q hq

theorem joinU_splitU (n : Name) : joinU (splitU n) = n := by
  apply String.toList_injective
  simp only [joinU, splitU, List.map_map, String.toList_ofList]
  have : (String.toList ∘ String.ofList) = id := by funext l; simp
  rw [this, List.map_id]
  generalize n.toList = s
  induction s with
  | nil => rfl
  | cons x s ih =>
    rw [List.splitOn_cons_eq_if_modifyHead]
    cases hs : s.splitOn '_' with
    | nil => exact absurd hs (List.splitOn_ne_nil _ _)
    | cons a t =>
      rw [hs] at ih
      split
      · rename_i hx
        have : x = '_' := by simpa using hx
        subst this
        rw [← ih]; simp [List.intercalate, List.intersperse]
      · rw [← ih]
        cases t <;> simp [List.intercalate, List.intersperse]

theorem sortNames_perm (l : List Name) : (sortNames l).Perm l := List.perm_insertionSort _ _

theorem sortNames_eq_nil {l : List Name} : sortNames l = [] ↔ l = [] := by
  constructor
  · intro h; have := (sortNames_perm l).length_eq; rw [h] at this; exact List.length_eq_zero_iff.1 this.symm
  · rintro rfl; rfl

theorem mem_sortNames {l : List Name} {n : Name} : n ∈ sortNames l ↔ n ∈ l := (sortNames_perm l).mem_iff

theorem prod_sortNames (f : Name → ℝ) (l : List Name) : ((sortNames l).map f).prod = (l.map f).prod :=
  ((sortNames_perm l).map f).prod_eq

theorem sortNames_pairwise (l : List Name) : (sortNames l).Pairwise (· ≤ ·) := List.pairwise_insertionSort _ _

theorem sortNames_of_sorted {l : List Name} (h : l.Pairwise (· ≤ ·)) : sortNames l = l := h.insertionSort_eq

/-- equal multisets of names give the same sorted list -/
theorem sortNames_congr {l l' : List Name} (h : l.Perm l') : sortNames l = sortNames l' :=
  List.Perm.eq_of_pairwise (fun _ _ _ _ h1 h2 => le_antisymm h1 h2) (sortNames_pairwise l) (sortNames_pairwise l')
    (((sortNames_perm l).trans h).trans (sortNames_perm l').symm)

theorem longEnv_plain {env : Name → ℝ} {n : Name} (h : Plain n) : longEnv env n = env n := by
  rw [longEnv, splitU_plain h]; simp

theorem longEnv_join (env : Name → ℝ) {l : List Name} (hne : l ≠ []) : longEnv env (joinU l) = (l.map (longEnv env)).prod := by
  rw [longEnv, splitU_join l hne]
  induction l with
  | nil => rfl
  | cons a l ih =>
    by_cases hl : l = []
    · subst hl; simp [longEnv]
    · simp only [List.flatMap_cons, List.map_append, List.prod_append, List.map_cons, List.prod_cons]
      rw [ih hl]; rfl

theorem prod_monoNames (env : Name → ℝ) (t : PolyTerm) : t.eval env = (t.2 : ℝ) * ((monoNames t).map env).prod := by
  rw [PolyTerm.eval, monoNames]
  congr 1
  induction t.1 with
  | nil => rfl
  | cons p l ih => simp [List.flatMap_cons, ih]

theorem prod_monoParts (env : Name → ℝ) (t : PolyTerm) : t.eval (longEnv env) = (t.2 : ℝ) * ((monoParts t).map env).prod := by
  rw [PolyTerm.eval, monoParts]
  congr 1
  induction t.1 with
  | nil => rfl
  | cons p l ih =>
    simp only [List.flatMap_cons, List.map_cons, List.prod_cons, List.map_append, List.prod_append, ih]
    congr 1
    induction p.2 with
    | zero => simp
    | succ n ih => rw [List.replicate_succ, List.flatten_cons, List.map_append, List.prod_append, ← ih, pow_succ']; rfl

theorem monoNames_sub {C : CAS} (hC : C.Lawful) {e : Sym} {t : PolyTerm} (ht : t ∈ C.poly e) : ∀ n ∈ monoNames t, n ∈ e.vars := by
  intro n hn
  rw [monoNames, List.mem_flatMap] at hn
  obtain ⟨p, hp, hn⟩ := hn
  rw [(List.mem_replicate.1 hn).2]
  exact hC.poly_vars e t ht p hp

end Verif
