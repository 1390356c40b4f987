import Verif.Spec.Mixing
import Verif.Proofs.GraphBuild

/-!
# The Metropolis-Hastings weights, entry by entry
-/

namespace Verif

namespace NxGraph

theorem mem_edgesFrom {d : Dict ℕ (List ℕ)} {seen : List ℕ} {u v : ℕ} (h : (u, v) ∈ edgesFrom d seen) : ∃ l, (u, l) ∈ d ∧ v ∈ l := by
  induction d generalizing seen with
  | nil => simp [edgesFrom] at h
  | cons kv d ih =>
    obtain ⟨w, l⟩ := kv
    rw [edgesFrom, List.mem_append, List.mem_map] at h
    rcases h with ⟨a, ha, he⟩ | h
    · simp only [Prod.mk.injEq] at he
      obtain ⟨rfl, rfl⟩ := he
      exact ⟨l, List.mem_cons_self, List.mem_of_mem_filter ha⟩
    · obtain ⟨l', h1, h2⟩ := ih h
      exact ⟨l', List.mem_cons_of_mem _ h1, h2⟩

/-- an edge is listed from one of its ends, unless the other end was visited before -/
theorem edgesFrom_mem {d : Dict ℕ (List ℕ)} {seen : List ℕ} (hsym : ∀ u v l, (u, l) ∈ d → v ∈ l → v ∉ seen → ∃ l', (v, l') ∈ d ∧ u ∈ l')
    {u v : ℕ} {l : List ℕ} (h1 : (u, l) ∈ d) (h2 : v ∈ l) (hv : v ∉ seen) (hu : u ∉ seen) (hk : d.keys.Nodup) :
    (u, v) ∈ edgesFrom d seen ∨ (v, u) ∈ edgesFrom d seen := by
  induction d generalizing seen u v l with
  | nil => cases h1
  | cons kv d ih =>
    obtain ⟨w, lw⟩ := kv
    have hk' : w ∉ Dict.keys d ∧ (Dict.keys d).Nodup := List.nodup_cons.1 hk
    have key : ∀ u l, (u, l) ∈ d → u ≠ w := by
      rintro u l h rfl
      exact hk'.1 (List.mem_map_of_mem (f := Prod.fst) h)
    have head : ∀ b, b ∈ lw → b ∉ seen → (w, b) ∈ edgesFrom ((w, lw) :: d) seen := by
      intro b hb hbs
      rw [edgesFrom]
      refine List.mem_append_left _ (List.mem_map.2 ⟨b, ?_, rfl⟩)
      simpa [List.mem_filter] using ⟨hb, hbs⟩
    rcases List.mem_cons.1 h1 with h0 | h0
    · simp only [Prod.mk.injEq] at h0
      obtain ⟨rfl, rfl⟩ := h0
      exact Or.inl (head v h2 hv)
    · by_cases hvw : v = w
      · subst hvw
        obtain ⟨l', h3, h4⟩ := hsym u v l (List.mem_cons_of_mem _ h0) h2 hv
        rcases List.mem_cons.1 h3 with h3 | h3
        · simp only [Prod.mk.injEq] at h3
          obtain ⟨-, rfl⟩ := h3
          exact Or.inr (head u h4 hu)
        · exact absurd rfl (key _ _ h3)
      · have := ih (seen := w :: seen) (fun a b la ha hb hbs => by
          obtain ⟨l', h3, h4⟩ := hsym a b la (List.mem_cons_of_mem _ ha) hb (fun h => hbs (List.mem_cons_of_mem _ h))
          rcases List.mem_cons.1 h3 with h3 | h3
          · simp only [Prod.mk.injEq] at h3
            exact absurd (by rw [h3.1]; exact List.mem_cons_self) hbs
          · exact ⟨l', h3, h4⟩) h0 h2 (by simp [hvw, hv]) (by simp [key _ _ h0, hu]) hk'.2
        rw [edgesFrom]
        exact this.imp (List.mem_append_right _) (List.mem_append_right _)

theorem isEdge_iff_edges {G : NxGraph} (hG : G.Simple) (u v : ℕ) : G.IsEdge u v ↔ (u, v) ∈ G.edges ∨ (v, u) ∈ G.edges := by
  constructor
  · rintro ⟨l, h1, h2⟩
    exact edgesFrom_mem (fun a b la ha hb _ => hG.symm a b ⟨la, ha, hb⟩) h1 h2 (by simp) (by simp) hG.keys
  · rintro (h | h)
    · exact mem_edgesFrom h
    · exact hG.symm _ _ (mem_edgesFrom h)

theorem isEdge_addEdges (G : NxGraph) (l : List (ℕ × ℕ)) (a b : ℕ) :
    (G.addEdges l).IsEdge a b ↔ G.IsEdge a b ∨ (a, b) ∈ l ∨ (b, a) ∈ l := by
  induction l generalizing G with
  | nil => simp [addEdges]
  | cons e l ih =>
    obtain ⟨u, v⟩ := e
    change ((G.addEdge u v).addEdges l).IsEdge a b ↔ _
    rw [ih, isEdge_addEdge]
    simp only [List.mem_cons, Prod.mk.injEq]
    tauto

theorem connected_graph20 : (graph20 20).Connected 20 := by
  have e : ∀ j < 19, (graph20 20).IsEdge (j + 1) (j + 2) := by
    intro j hj
    unfold graph20
    rw [isEdge_addEdges]
    refine Or.inr (Or.inl ?_)
    interval_cases j <;> decide
  refine connected_of_root (simple_graph20 20) fun j hj => ?_
  induction j with
  | zero => exact .refl
  | succ j ih => exact (ih (by omega)).tail (e j (by omega))

end NxGraph

section
variable {K : Type} [Field K]

/-- what the loop over the edges stores for two neighbours -/
def mhValue (G : NxGraph) (u v : ℕ) : K := 1 / ((max (G.degree u) (G.degree v) : ℕ) + 1)

theorem mhValue_comm (G : NxGraph) (u v : ℕ) : (mhValue G u v : K) = mhValue G v u := by
  unfold mhValue
  rw [max_comm]

open Classical in
theorem foldl_mhEdge (G : NxGraph) (l : List (ℕ × ℕ)) (W : ℕ → ℕ → K) (hl : ∀ e ∈ l, 1 ≤ e.1 ∧ 1 ≤ e.2) (a b : ℕ) :
    l.foldl (mhEdge G) W a b = if (a + 1, b + 1) ∈ l ∨ (b + 1, a + 1) ∈ l then mhValue G (a + 1) (b + 1) else W a b := by
  induction l generalizing W with
  | nil => simp
  | cons e l ih =>
    rw [List.foldl_cons, ih _ (fun e he => hl e (List.mem_cons_of_mem _ he))]
    obtain ⟨u, v⟩ := e
    obtain ⟨hu, hv⟩ := hl (u, v) List.mem_cons_self
    simp only at hu hv
    by_cases h1 : (a + 1, b + 1) ∈ l ∨ (b + 1, a + 1) ∈ l
    · rw [if_pos h1, if_pos (h1.imp (List.mem_cons_of_mem _) (List.mem_cons_of_mem _))]
    · rw [if_neg h1]
      have e1 : (a = v - 1 ∧ b = u - 1) ↔ (b + 1, a + 1) = (u, v) := by simp only [Prod.mk.injEq]; omega
      have e2 : (a = u - 1 ∧ b = v - 1) ↔ (a + 1, b + 1) = (u, v) := by simp only [Prod.mk.injEq]; omega
      simp only [mhEdge, setEntry, e1, e2, List.mem_cons]
      push Not at h1
      by_cases h2 : (b + 1, a + 1) = (u, v)
      · rw [if_pos h2, if_pos (Or.inr (Or.inl h2))]
        simp only [Prod.mk.injEq] at h2
        rw [mhValue, ← h2.1, ← h2.2]
      · rw [if_neg h2]
        by_cases h3 : (a + 1, b + 1) = (u, v)
        · rw [if_pos h3, if_pos (Or.inl (Or.inl h3))]
          simp only [Prod.mk.injEq] at h3
          rw [mhValue, ← h3.1, ← h3.2]
        · rw [if_neg h3, if_neg]
          rintro ((h4 | h4) | (h4 | h4))
          · exact h3 h4
          · exact h1.1 h4
          · exact h2 h4
          · exact h1.2 h4

theorem foldl_mhDiag (n m : ℕ) (W : ℕ → ℕ → K) (a b : ℕ) :
    (List.range m).foldl (mhDiag n) W a b = if a = b ∧ a < m then 1 - ∑ j ∈ Finset.range n, W a j else W a b := by
  induction m with
  | zero => simp
  | succ m ih =>
    rw [List.range_succ, List.foldl_append, List.foldl_cons, List.foldl_nil]
    have ih' : ∀ j, (List.range m).foldl (mhDiag n) W m j = W m j := by
      intro j
      have : ∀ k ≤ m, (List.range k).foldl (mhDiag n) W m j = W m j := by
        intro k
        induction k with
        | zero => simp
        | succ k ihk =>
          intro hk
          rw [List.range_succ, List.foldl_append, List.foldl_cons, List.foldl_nil, mhDiag, setEntry, if_neg (by omega), ihk (by omega)]
      exact this m le_rfl
    rw [mhDiag, setEntry]
    by_cases h1 : a = m ∧ b = m
    · obtain ⟨rfl, rfl⟩ := h1
      rw [if_pos ⟨rfl, rfl⟩, if_pos ⟨rfl, by omega⟩]
      simp only [ih']
    · rw [if_neg h1, ih]
      by_cases h2 : a = b ∧ a < m
      · rw [if_pos h2, if_pos ⟨h2.1, by omega⟩]
      · rw [if_neg h2, if_neg (by omega)]

open Classical in
/-- the entries of the matrix -/
theorem mhWeights_entries {n : ℕ} {G : NxGraph} (hG : G.Simple) {W : ℕ → ℕ → K} (h : mhWeights n G = .ok W) :
    (∀ u v, G.IsEdge u v → 1 ≤ u ∧ u ≤ n ∧ 1 ≤ v ∧ v ≤ n) ∧
    (∀ a b, a ≠ b → W a b = if G.IsEdge (a + 1) (b + 1) then mhValue G (a + 1) (b + 1) else 0) ∧
    ∀ a < n, W a a = 1 - ∑ b ∈ Finset.range n, if G.IsEdge (a + 1) (b + 1) then mhValue G (a + 1) (b + 1) else 0 := by
  unfold mhWeights at h
  split at h
  · rename_i hall
    simp only [List.all_eq_true, decide_eq_true_eq] at hall
    cases h
    have hE : ∀ a b, G.edges.foldl (mhEdge G) (fun _ _ => (0 : K)) a b = if G.IsEdge (a + 1) (b + 1) then mhValue G (a + 1) (b + 1) else 0 := by
      intro a b
      rw [foldl_mhEdge G G.edges _ (fun e he => ⟨(hall e he).1, (hall e he).2.2.1⟩)]
      simp only [NxGraph.isEdge_iff_edges hG]
    refine ⟨fun u v huv => ?_, fun a b hab => ?_, fun a ha => ?_⟩
    · rcases (NxGraph.isEdge_iff_edges hG u v).1 huv with h1 | h1
      · exact hall _ h1
      · obtain ⟨h2, h3, h4, h5⟩ := hall _ h1
        exact ⟨h4, h5, h2, h3⟩
    · rw [foldl_mhDiag, if_neg (by tauto), hE]
    · rw [foldl_mhDiag, if_pos ⟨rfl, ha⟩]
      simp only [hE]
  · cases h

open Classical in
/-- number of neighbours among the first `n` nodes -/
theorem card_nbrs {n : ℕ} {G : NxGraph} (hG : G.Simple) (hlab : ∀ u v, G.IsEdge u v → 1 ≤ u ∧ u ≤ n ∧ 1 ≤ v ∧ v ≤ n) (a : ℕ) :
    ((Finset.range n).filter fun b => G.IsEdge (a + 1) (b + 1)).card = G.degree (a + 1) := by
  have hirr : a + 1 ∉ G.nbrs (a + 1) := by
    rw [NxGraph.mem_nbrs hG.keys]
    exact hG.irrefl _
  rw [NxGraph.degree, if_neg hirr, add_zero]
  have hnd : (G.nbrs (a + 1)).Nodup := by
    unfold NxGraph.nbrs
    cases hg : G.adj.get? (a + 1) with
    | none => simp
    | some l =>
      obtain ⟨p, h1, h2⟩ := Option.map_eq_some_iff.1 hg
      have := hG.nodup _ (List.mem_of_find?_eq_some h1)
      simpa [h2] using this
  rw [← List.toFinset_card_of_nodup hnd]
  refine Finset.card_bij (fun b _ => b + 1) (fun b hb => ?_) (fun b _ c _ hbc => by simpa using hbc) (fun v hv => ?_)
  · rw [List.mem_toFinset, NxGraph.mem_nbrs hG.keys]
    exact (Finset.mem_filter.1 hb).2
  · rw [List.mem_toFinset, NxGraph.mem_nbrs hG.keys] at hv
    have := hlab _ _ hv
    exact ⟨v - 1, Finset.mem_filter.2 ⟨Finset.mem_range.2 (by omega), by rwa [Nat.sub_add_cancel this.2.2.1]⟩, Nat.sub_add_cancel this.2.2.1⟩

end

end Verif
