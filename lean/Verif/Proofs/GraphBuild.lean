import Verif.Proofs.Graph
import Mathlib.Tactic.IntervalCases

/-!
# Graphs made by `add_node` and `add_edge` are simple
-/

namespace Verif
namespace NxGraph

theorem has_iff {G : NxGraph} {u : ℕ} : G.adj.has u = true ↔ u ∈ G.adj.keys := by
  unfold Dict.has Dict.get? Dict.keys
  simp [List.find?_isSome]

theorem keys_addNode (G : NxGraph) (u : ℕ) : (G.addNode u).adj.keys = if u ∈ G.adj.keys then G.adj.keys else G.adj.keys ++ [u] := by
  unfold addNode
  by_cases h : u ∈ G.adj.keys
  · rw [if_pos (has_iff.2 h), if_pos h]
  · rw [if_neg (fun h' => h (has_iff.1 h')), if_neg h]
    simp [Dict.keys]

theorem keys_link (G : NxGraph) (u v : ℕ) : (G.link u v).adj.keys = G.adj.keys := by
  unfold link Dict.keys
  rw [List.map_map]
  congr 1
  funext kv
  simp only [Function.comp]
  split <;> rfl

theorem isEdge_addNode (G : NxGraph) (u a b : ℕ) : (G.addNode u).IsEdge a b ↔ G.IsEdge a b := by
  unfold addNode
  split
  · rfl
  · unfold IsEdge
    simp only [List.mem_append, List.mem_singleton, Prod.mk.injEq]
    constructor
    · rintro ⟨l, h | ⟨rfl, rfl⟩, hb⟩
      · exact ⟨l, h, hb⟩
      · simp at hb
    · rintro ⟨l, h, hb⟩
      exact ⟨l, Or.inl h, hb⟩

theorem isEdge_link {G : NxGraph} {u : ℕ} (hu : u ∈ G.adj.keys) (v a b : ℕ) :
    (G.link u v).IsEdge a b ↔ G.IsEdge a b ∨ (a = u ∧ b = v) := by
  unfold link IsEdge
  simp only [List.mem_map]
  constructor
  · rintro ⟨l, ⟨⟨k, m⟩, hm, he⟩, hb⟩
    simp only at he
    split at he
    · rename_i hk
      simp only [Prod.mk.injEq] at he
      obtain ⟨rfl, rfl⟩ := he
      split at hb
      · exact Or.inl ⟨m, hm, hb⟩
      · rcases List.mem_append.1 hb with hb | hb
        · exact Or.inl ⟨m, hm, hb⟩
        · exact Or.inr ⟨hk, by simpa using hb⟩
    · simp only [Prod.mk.injEq] at he
      obtain ⟨rfl, rfl⟩ := he
      exact Or.inl ⟨m, hm, hb⟩
  · rintro (⟨l, hl, hb⟩ | ⟨rfl, rfl⟩)
    · by_cases hk : a = u
      · refine ⟨_, ⟨(a, l), hl, by rw [if_pos hk]⟩, ?_⟩
        split
        · exact hb
        · exact List.mem_append_left _ hb
      · exact ⟨l, ⟨(a, l), hl, by simp [hk]⟩, hb⟩
    · obtain ⟨⟨k, m⟩, hm, he⟩ := List.mem_map.1 hu
      simp only at he
      subst he
      refine ⟨_, ⟨(k, m), hm, by rw [if_pos rfl]⟩, ?_⟩
      split
      · assumption
      · simp

theorem nodup_addNode {G : NxGraph} (h : ∀ kv ∈ G.adj, kv.2.Nodup) (u : ℕ) : ∀ kv ∈ (G.addNode u).adj, kv.2.Nodup := by
  unfold addNode
  split
  · exact h
  · intro kv hkv
    rcases List.mem_append.1 hkv with hkv | hkv
    · exact h kv hkv
    · rw [List.mem_singleton] at hkv
      subst hkv
      exact List.nodup_nil

theorem nodup_link {G : NxGraph} (h : ∀ kv ∈ G.adj, kv.2.Nodup) (u v : ℕ) : ∀ kv ∈ (G.link u v).adj, kv.2.Nodup := by
  intro kv hkv
  obtain ⟨kv', hm, rfl⟩ := List.mem_map.1 hkv
  have := h kv' hm
  split
  · split
    · exact this
    · rename_i hv
      simp only [List.nodup_append, List.nodup_cons, List.not_mem_nil, not_false_eq_true, List.nodup_nil, and_self, List.mem_singleton,
        true_and, this]
      rintro a ha b rfl rfl
      exact hv ha
  · exact this

theorem keysNodup_addNode {G : NxGraph} (h : G.adj.keys.Nodup) (u : ℕ) : (G.addNode u).adj.keys.Nodup := by
  rw [keys_addNode]
  split
  · exact h
  · rename_i hu
    simp only [List.nodup_append, h, List.nodup_cons, List.not_mem_nil, not_false_eq_true, List.nodup_nil, and_self, List.mem_singleton, true_and]
    rintro a ha b rfl rfl
    exact hu ha

theorem mem_keys_addNode {G : NxGraph} {u w : ℕ} : w ∈ (G.addNode u).adj.keys ↔ w ∈ G.adj.keys ∨ w = u := by
  rw [keys_addNode]
  split
  · rename_i h
    exact ⟨Or.inl, fun h' => h'.elim id fun h' => h' ▸ h⟩
  · simp

theorem isEdge_addEdge (G : NxGraph) (u v a b : ℕ) :
    (G.addEdge u v).IsEdge a b ↔ G.IsEdge a b ∨ (a = u ∧ b = v) ∨ (a = v ∧ b = u) := by
  unfold addEdge
  rw [isEdge_link (by rw [keys_link, mem_keys_addNode]; exact Or.inr rfl),
    isEdge_link (by rw [mem_keys_addNode, mem_keys_addNode]; exact Or.inl (Or.inr rfl)), isEdge_addNode, isEdge_addNode, or_assoc]

theorem mem_keys_addEdge {G : NxGraph} {u v w : ℕ} : w ∈ (G.addEdge u v).adj.keys ↔ w ∈ G.adj.keys ∨ w = u ∨ w = v := by
  unfold addEdge
  rw [keys_link, keys_link, mem_keys_addNode, mem_keys_addNode, or_assoc]

theorem simple_empty : empty.Simple :=
  ⟨List.nodup_nil, by simp [empty], by rintro u v ⟨l, h, -⟩; simp [empty] at h, by rintro u ⟨l, h, -⟩; simp [empty] at h⟩

theorem Simple.addNode {G : NxGraph} (h : G.Simple) (u : ℕ) : (G.addNode u).Simple :=
  ⟨keysNodup_addNode h.keys u, nodup_addNode h.nodup u, fun a b => by rw [isEdge_addNode, isEdge_addNode]; exact h.symm a b,
    fun a => by rw [isEdge_addNode]; exact h.irrefl a⟩

theorem Simple.addEdge {G : NxGraph} (h : G.Simple) {u v : ℕ} (huv : u ≠ v) : (G.addEdge u v).Simple := by
  refine ⟨?_, ?_, ?_, ?_⟩
  · unfold NxGraph.addEdge
    rw [keys_link, keys_link]
    exact keysNodup_addNode (keysNodup_addNode h.keys u) v
  · exact nodup_link (nodup_link (nodup_addNode (nodup_addNode h.nodup u) v) u v) v u
  · intro a b
    rw [isEdge_addEdge, isEdge_addEdge]
    rintro (h1 | h1 | h1)
    · exact Or.inl (h.symm _ _ h1)
    · exact Or.inr (Or.inr ⟨h1.2, h1.1⟩)
    · exact Or.inr (Or.inl ⟨h1.2, h1.1⟩)
  · intro a
    rw [isEdge_addEdge]
    rintro (h1 | h1 | h1)
    · exact h.irrefl _ h1
    · exact huv (h1.1.symm.trans h1.2)
    · exact huv (h1.2.symm.trans h1.1)

theorem Simple.addNodes {G : NxGraph} (h : G.Simple) (l : List ℕ) : (G.addNodes l).Simple := by
  induction l generalizing G with
  | nil => exact h
  | cons u l ih => exact ih (h.addNode u)

theorem Simple.addEdges {G : NxGraph} (h : G.Simple) {l : List (ℕ × ℕ)} (hl : ∀ e ∈ l, e.1 ≠ e.2) : (G.addEdges l).Simple := by
  induction l generalizing G with
  | nil => exact h
  | cons e l ih => exact ih (h.addEdge (hl e (by simp))) fun e he => hl e (by simp [he])

theorem simple_graph6 : graph6.Simple := (simple_empty.addNodes _).addEdges (by decide)

theorem simple_graph20 (n : ℕ) : (graph20 n).Simple := (simple_empty.addNodes _).addEdges (by decide)

theorem connected_of_root {G : NxGraph} (hG : G.Simple) {n : ℕ} (h : ∀ j < n, Relation.ReflTransGen G.IsEdge 1 (j + 1)) : G.Connected n := by
  intro j hj l hl
  haveI : Std.Symm G.IsEdge := ⟨fun _ _ => hG.symm _ _⟩
  exact (Relation.ReflTransGen.symmetric.symm _ _ (h j hj)).trans (h l hl)

theorem isEdge_of_nbrs {G : NxGraph} (hG : G.Simple) {u v : ℕ} (h : v ∈ G.nbrs u) : G.IsEdge u v := (mem_nbrs hG.keys).1 h

theorem connected_graph6 : graph6.Connected 6 := by
  have e : ∀ u v, v ∈ graph6.nbrs u → graph6.IsEdge u v := fun u v => isEdge_of_nbrs simple_graph6
  have h2 := Relation.ReflTransGen.refl.tail (e 1 2 (by decide))
  have h4 := h2.tail (e 2 4 (by decide))
  refine connected_of_root simple_graph6 fun j hj => ?_
  interval_cases j
  · exact .refl
  · exact h2
  · exact Relation.ReflTransGen.refl.tail (e 1 3 (by decide))
  · exact h4
  · exact h4.tail (e 4 5 (by decide))
  · exact h4.tail (e 4 6 (by decide))

end NxGraph
end Verif
