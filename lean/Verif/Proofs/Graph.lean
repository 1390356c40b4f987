import Verif.Spec.Graph
import Mathlib.Data.List.Sort

/-!
# Lemmas about graphs
-/

namespace Verif
namespace NxGraph

theorem get?_of_mem {α β : Type} [DecidableEq α] {d : Dict α β} (hn : d.keys.Nodup) {k : α} {v : β} (h : (k, v) ∈ d) : d.get? k = some v := by
  induction d with
  | nil => simp at h
  | cons kv d ih =>
    simp only [Dict.keys, List.map_cons, List.nodup_cons] at hn
    rcases List.mem_cons.1 h with h | h
    · subst h; simp [Dict.get?]
    · have hne : kv.1 ≠ k := by
        rintro rfl
        exact hn.1 (List.mem_map.2 ⟨_, h, rfl⟩)
      have := ih hn.2 h
      unfold Dict.get? at this ⊢
      rw [List.find?_cons_of_neg (by simpa using hne)]
      exact this

theorem nbrs_of_mem {G : NxGraph} (hn : G.adj.keys.Nodup) {u : ℕ} {l : List ℕ} (h : (u, l) ∈ G.adj) : G.nbrs u = l := by
  simp [nbrs, get?_of_mem hn h]

theorem mem_nbrs {G : NxGraph} (hn : G.adj.keys.Nodup) {u v : ℕ} : v ∈ G.nbrs u ↔ G.IsEdge u v := by
  constructor
  · intro h
    unfold nbrs at h
    cases h' : G.adj.get? u with
    | none => simp [h'] at h
    | some l =>
      rw [h'] at h
      refine ⟨l, ?_, h⟩
      unfold Dict.get? at h'
      simp only [Option.map_eq_some_iff] at h'
      obtain ⟨kv, h1, h2⟩ := h'
      have h3 := List.mem_of_find?_eq_some h1
      have h4 : kv.1 = u := by simpa using List.find?_some h1
      rw [← h4, ← h2]
      exact h3
  · rintro ⟨l, h1, h2⟩
    rwa [nbrs_of_mem hn h1]

theorem adjacency_fold {l : Dict ℕ (List ℕ)} {a a' : List (List ℕ)} (h : l.foldlM adjacencyStep a = .ok a') :
    (∀ kv ∈ l, 1 ≤ kv.1 ∧ kv.1 ≤ a.length) ∧ a'.length = a.length ∧
      (l.keys.Nodup → ∀ j, (∀ nb, (j + 1, nb) ∈ l → a'.getD j [] = nb.map (· - 1)) ∧ (j + 1 ∉ l.keys → a'.getD j [] = a.getD j [])) := by
  induction l generalizing a with
  | nil =>
    simp only [List.foldlM_nil] at h
    cases h
    simp
  | cons kv l ih =>
    rw [List.foldlM_cons] at h
    unfold adjacencyStep at h
    split at h
    · rename_i hk
      obtain ⟨h1, h2, h3⟩ := ih h
      simp only [List.length_set] at h1 h2
      refine ⟨?_, h2, ?_⟩
      · intro x hx
        rcases List.mem_cons.1 hx with rfl | hx
        · omega
        · exact h1 x hx
      · intro hn j
        simp only [Dict.keys, List.map_cons, List.nodup_cons] at hn
        obtain ⟨h4, h5⟩ := h3 hn.2 j
        constructor
        · intro nb hm
          rcases List.mem_cons.1 hm with hm | hm
          · subst hm
            rw [h5 hn.1]
            simp only [add_tsub_cancel_right] at hk ⊢
            simp [List.getD_eq_getElem?_getD, hk.2]
          · exact h4 nb hm
        · intro hm
          simp only [Dict.keys, List.map_cons, List.mem_cons, not_or] at hm
          rw [h5 hm.2, List.getD_eq_getElem?_getD, List.getD_eq_getElem?_getD, List.getElem?_set_ne (by omega)]
    · exact absurd h (by simp [bind, Except.bind])

theorem adjacency_ok {G : NxGraph} {a : List (List ℕ)} (h : G.adjacency = .ok a) (hn : G.adj.keys.Nodup) :
    a.length = G.adj.length ∧ G.adj.keys.Perm (List.range' 1 G.adj.length) ∧ ∀ j < G.adj.length, a.getD j [] = (G.nbrs (j + 1)).map (· - 1) := by
  obtain ⟨h1, h2, h3⟩ := adjacency_fold h
  rw [List.length_replicate] at h1 h2
  have hp : G.adj.keys.Perm (List.range' 1 G.adj.length) := by
    refine (List.subperm_of_subset hn ?_).perm_of_length_le (by simp [Dict.keys])
    intro u hu
    obtain ⟨kv, hkv, rfl⟩ := List.mem_map.1 hu
    have := h1 kv hkv
    rw [List.mem_range'_1]
    omega
  refine ⟨h2, hp, fun j hj => ?_⟩
  have hm : j + 1 ∈ G.adj.keys := hp.mem_iff.2 (by rw [List.mem_range'_1]; omega)
  obtain ⟨⟨u, l⟩, hkv, he⟩ := List.mem_map.1 hm
  simp only at he
  subst he
  rw [((h3 hn j).1 l hkv), nbrs_of_mem hn hkv]

theorem nodeDegrees_getD {G : NxGraph} {m : ℕ} (hp : G.adj.keys.Perm (List.range' 1 m)) {j : ℕ} (hj : j < m) :
    G.nodeDegrees.getD j 0 = G.degree (j + 1) := by
  have key : ((G.adj.keys.map fun u => (u, G.degree u)).insertionSort fun a b => a.1 ≤ b.1) =
      (List.range' 1 m).map fun u => (u, G.degree u) := by
    have hperm : ((G.adj.keys.map fun u => (u, G.degree u)).insertionSort fun a b => a.1 ≤ b.1).Perm
        ((List.range' 1 m).map fun u => (u, G.degree u)) := (List.perm_insertionSort _ _).trans (hp.map _)
    haveI : Std.Total (fun a b : ℕ × ℕ => a.1 ≤ b.1) := ⟨fun a b => le_total _ _⟩
    haveI : IsTrans (ℕ × ℕ) (fun a b : ℕ × ℕ => a.1 ≤ b.1) := ⟨fun a b c => le_trans⟩
    have hs1 := List.pairwise_insertionSort (fun a b : ℕ × ℕ => a.1 ≤ b.1) (G.adj.keys.map fun u => (u, G.degree u))
    have hs2 : ((List.range' 1 m).map fun u => (u, G.degree u)).Pairwise fun a b => a.1 ≤ b.1 := by
      rw [List.pairwise_map]
      exact (List.pairwise_lt_range' (step := 1)).imp fun h => h.le
    refine List.Perm.eq_of_pairwise ?_ hs1 hs2 hperm
    intro a b ha hb h1 h2
    obtain ⟨u, -, rfl⟩ := List.mem_map.1 (hperm.mem_iff.1 ha)
    obtain ⟨w, -, rfl⟩ := List.mem_map.1 hb
    simp only at h1 h2
    rw [le_antisymm h1 h2]
  unfold nodeDegrees
  rw [key]
  simp [List.getD_eq_getElem?_getD, hj, add_comm]

end NxGraph

/-- a network by positions: degrees and adjacency lists of an undirected simple graph on `0, …, n-1` -/
structure Net (n : ℕ) (deg : ℕ → ℕ) (adj : ℕ → List ℕ) : Prop where
  deg : ∀ j < n, deg j = (adj j).length
  nodup : ∀ j < n, (adj j).Nodup
  lt : ∀ j < n, ∀ l ∈ adj j, l < n
  symm : ∀ j < n, ∀ l ∈ adj j, j ∈ adj l
  irrefl : ∀ j < n, j ∉ adj j

theorem net_of_graph {G : NxGraph} (hG : G.Simple) {a : List (List ℕ)} (h : G.adjacency = .ok a) {n : ℕ} (hn : n ≤ G.adj.length)
    (hl : ∀ j < n, ∀ l ∈ a.getD j [], l < n) :
    Net n (G.nodeDegrees.getD · 0) (a.getD · []) ∧ (∀ j < n, ∀ l, l ∈ a.getD j [] ↔ G.IsEdge (j + 1) (l + 1)) ∧
      (∀ j < n, ∀ l ∈ a.getD j [], (a.getD j []).idxOf l = G.pos j l) ∧ (∀ u v, G.IsEdge u v → 1 ≤ u ∧ 1 ≤ v) := by
  obtain ⟨h1, h2, h3⟩ := NxGraph.adjacency_ok h hG.keys
  have pos : ∀ u v, G.IsEdge u v → 1 ≤ u ∧ 1 ≤ v := by
    have : ∀ u v, G.IsEdge u v → 1 ≤ u := by
      rintro u v ⟨l, hl, -⟩
      have : u ∈ G.adj.keys := List.mem_map_of_mem (f := Prod.fst) hl
      have := List.mem_range'_1.1 (h2.mem_iff.1 this)
      omega
    exact fun u v huv => ⟨this u v huv, this v u (hG.symm u v huv)⟩
  have mem : ∀ j < n, ∀ l, l ∈ a.getD j [] ↔ G.IsEdge (j + 1) (l + 1) := by
    intro j hj l
    rw [h3 j (by omega), List.mem_map]
    constructor
    · rintro ⟨v, hv, rfl⟩
      have := (NxGraph.mem_nbrs hG.keys).1 hv
      have h4 := (pos _ _ this).2
      rwa [Nat.sub_add_cancel h4]
    · intro h4
      exact ⟨l + 1, (NxGraph.mem_nbrs hG.keys).2 h4, rfl⟩
  have inj : ∀ j < n, ∀ v ∈ G.nbrs (j + 1), ∀ w ∈ G.nbrs (j + 1), v - 1 = w - 1 → v = w := by
    intro j _ v hv w hw
    have := (pos _ _ ((NxGraph.mem_nbrs hG.keys).1 hv)).2
    have := (pos _ _ ((NxGraph.mem_nbrs hG.keys).1 hw)).2
    omega
  have nd : ∀ j < n, (G.nbrs (j + 1)).Nodup := by
    intro j hj
    have hm : j + 1 ∈ G.adj.keys := h2.mem_iff.2 (by rw [List.mem_range'_1]; omega)
    obtain ⟨⟨u, l⟩, hkv, he⟩ := List.mem_map.1 hm
    simp only at he
    subst he
    rw [NxGraph.nbrs_of_mem hG.keys hkv]
    exact hG.nodup _ hkv
  refine ⟨⟨?_, ?_, hl, ?_, ?_⟩, mem, ?_, pos⟩
  · intro j hj
    rw [NxGraph.nodeDegrees_getD h2 (by omega), h3 j (by omega), List.length_map, NxGraph.degree, if_neg, add_zero]
    rw [NxGraph.mem_nbrs hG.keys]
    exact hG.irrefl _
  · intro j hj
    rw [h3 j (by omega)]
    exact (List.nodup_map_iff_inj_on (nd j hj)).2 (inj j hj)
  · intro j hj l hl'
    have h5 := hl j hj l hl'
    exact (mem l h5 j).2 (hG.symm _ _ ((mem j hj l).1 hl'))
  · intro j hj hm
    exact hG.irrefl _ ((mem j hj j).1 hm)
  · intro j hj l hl'
    have he := (mem j hj l).1 hl'
    have hv : l + 1 ∈ G.nbrs (j + 1) := (NxGraph.mem_nbrs hG.keys).2 he
    unfold NxGraph.pos
    rw [h3 j (by omega)]
    have gen : ∀ (L : List ℕ), l + 1 ∈ L → (∀ v ∈ L, 1 ≤ v) → (L.map (· - 1)).idxOf l = L.idxOf (l + 1) := by
      intro L
      induction L with
      | nil => simp
      | cons v L ih =>
        intro h6 h7
        rw [List.map_cons]
        by_cases hvl : v = l + 1
        · subst hvl; simp
        · have : v - 1 ≠ l := by have := h7 v (by simp); omega
          rw [List.idxOf_cons_ne _ this, List.idxOf_cons_ne _ hvl, ih (by simpa [Ne.symm hvl] using h6) fun w hw => h7 w (by simp [hw])]
    exact gen _ hv fun v hv => (pos _ _ ((NxGraph.mem_nbrs hG.keys).1 hv)).2

end Verif
