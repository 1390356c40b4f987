import Verif.Model.Discretized
import Mathlib.Logic.Relation

/-!
# Simple graphs, as data of `networkx`
-/

namespace Verif

/-- `v` is listed as a neighbour of `u` -/
def NxGraph.IsEdge (G : NxGraph) (u v : ℕ) : Prop := ∃ l, (u, l) ∈ G.adj ∧ v ∈ l

/-- an undirected graph without self-loops: every node is stored once, every neighbour is listed once, neighbourhood is mutual -/
structure NxGraph.Simple (G : NxGraph) : Prop where
  keys : G.adj.keys.Nodup
  nodup : ∀ kv ∈ G.adj, kv.2.Nodup
  symm : ∀ u v, G.IsEdge u v → G.IsEdge v u
  irrefl : ∀ u, ¬ G.IsEdge u u

/-- any two of the first `n` nodes (labels `1, …, n`) are joined by a path -/
def NxGraph.Connected (G : NxGraph) (n : ℕ) : Prop :=
  ∀ j < n, ∀ l < n, Relation.ReflTransGen G.IsEdge (j + 1) (l + 1)

/-- position of node `l` (counted from 0) among the neighbours of node `j` (counted from 0) -/
def NxGraph.pos (G : NxGraph) (j l : ℕ) : ℕ := (G.nbrs (j + 1)).idxOf (l + 1)

end Verif
