import Verif.Model.Dict
import Verif.Model.Heap
import Mathlib.Algebra.Field.Basic
import Mathlib.Algebra.BigOperators.Group.Finset.Basic
import Mathlib.Data.List.Sort

/-!
# Graphs and mixing matrices of the decentralized experiments

Models the part of `networkx.Graph` that the code uses and the graph functions of `opt_problems/*.py`.  Simplified: node labels are natural
numbers and, where they are used as array positions, at least 1 (the code's labels start at 1); matrix entries are exact numbers of a field.
-/

namespace Verif

/-- `networkx.Graph`: the dictionary `_adj` from a node to its neighbours, in insertion order (attributes are not modelled) -/
structure NxGraph where
  adj : Dict ℕ (List ℕ)
deriving DecidableEq, Repr

namespace NxGraph

/-- `nx.Graph()` -/
def empty : NxGraph := ⟨[]⟩

/-- `G.add_node(u)`: nothing happens if the node exists -/
def addNode (G : NxGraph) (u : ℕ) : NxGraph := if G.adj.has u then G else ⟨G.adj ++ [(u, [])]⟩

/-- `G._adj[u][v] = data`: nothing happens if `v` is already a neighbour -/
def link (G : NxGraph) (u v : ℕ) : NxGraph :=
  ⟨G.adj.map fun kv => if kv.1 = u then (kv.1, if v ∈ kv.2 then kv.2 else kv.2 ++ [v]) else kv⟩

/-- `G.add_edge(u, v)` -/
def addEdge (G : NxGraph) (u v : ℕ) : NxGraph := (((G.addNode u).addNode v).link u v).link v u

/-- `G.add_nodes_from(l)` -/
def addNodes (G : NxGraph) (l : List ℕ) : NxGraph := l.foldl addNode G

/-- `G.add_edges_from(l)` -/
def addEdges (G : NxGraph) (l : List (ℕ × ℕ)) : NxGraph := l.foldl (fun G e => G.addEdge e.1 e.2) G

/-- neighbours of a node; `[]` for an unknown node (`KeyError` in python, never reached by the modelled code) -/
def nbrs (G : NxGraph) (u : ℕ) : List ℕ := (G.adj.get? u).getD []

/-- `G.degree(u)`: a self-loop counts twice -/
def degree (G : NxGraph) (u : ℕ) : ℕ := (G.nbrs u).length + if u ∈ G.nbrs u then 1 else 0

/-- `list(G.edges)`: an edge is listed at its first end -/
def edgesFrom : Dict ℕ (List ℕ) → List ℕ → List (ℕ × ℕ)
  | [], _ => []
  | (u, l) :: rest, seen => (l.filter (· ∉ seen)).map (fun v => (u, v)) ++ edgesFrom rest (u :: seen)

def edges (G : NxGraph) : List (ℕ × ℕ) := edgesFrom G.adj []

/-- `[degree for node, degree in sorted(G.degree(), key=lambda x: x[0])]` (`discretized_methods.py` 15) -/
def nodeDegrees (G : NxGraph) : List ℕ :=
  ((G.adj.keys.map fun u => (u, G.degree u)).insertionSort fun a b => a.1 ≤ b.1).map Prod.snd

/-- one iteration of the loop of `discretized_methods.py` 17-18 (and 83-84) -/
def adjacencyStep (a : List (List ℕ)) (kv : ℕ × List ℕ) : Except Err (List (List ℕ)) :=
  if 1 ≤ kv.1 ∧ kv.1 - 1 < a.length then .ok (a.set (kv.1 - 1) (kv.2.map (· - 1))) else .error .index

/-- `adjacency` (`discretized_methods.py` 16-18 and 82-84) -/
def adjacency (G : NxGraph) : Except Err (List (List ℕ)) :=
  G.adj.foldlM adjacencyStep (List.replicate G.adj.length [])

end NxGraph

/-! ### Mixing matrices -/

section weights
variable {K : Type} [Field K]

/-- `W[i, j] = v` -/
def setEntry (W : ℕ → ℕ → K) (i j : ℕ) (v : K) : ℕ → ℕ → K := fun a b => if a = i ∧ b = j then v else W a b

/-- one iteration of the loop over the edges (`decentr_qp.py` 90-93) -/
def mhEdge (G : NxGraph) (W : ℕ → ℕ → K) (e : ℕ × ℕ) : ℕ → ℕ → K :=
  setEntry (setEntry W (e.1 - 1) (e.2 - 1) (1 / ((max (G.degree e.1) (G.degree e.2) : ℕ) + 1)))
    (e.2 - 1) (e.1 - 1) (1 / ((max (G.degree e.2) (G.degree e.1) : ℕ) + 1))

/-- one iteration of the loop over the diagonal (`decentr_qp.py` 94-95) -/
def mhDiag (n : ℕ) (W : ℕ → ℕ → K) (i : ℕ) : ℕ → ℕ → K := setEntry W i i (1 - ∑ j ∈ Finset.range n, W i j)

/-- the mixing matrix `W` (`decentr_qp.py` 89-95; the same lines in `decentr_geom_median.py` 115-121, `decentr_ell2_Anorm.py` and
`decentr_compressed_sensing.py`).  A label beyond the matrix is an `IndexError`. -/
def mhWeights (n : ℕ) (G : NxGraph) : Except Err (ℕ → ℕ → K) :=
  if G.edges.all fun e => decide (1 ≤ e.1 ∧ e.1 ≤ n ∧ 1 ≤ e.2 ∧ e.2 ≤ n) then
    .ok ((List.range n).foldl (mhDiag n) (G.edges.foldl (mhEdge G) fun _ _ => 0))
  else .error .index

/-- the network of `graph_generation` (`decentr_qp.py` 80-86) -/
def graph20 (n : ℕ) : NxGraph := (NxGraph.empty.addNodes [1, n]).addEdges
  [(1, 2), (2, 3), (3, 4), (4, 5), (5, 6), (6, 7), (7, 8), (8, 9), (9, 10),
    (10, 11), (11, 12), (12, 13), (13, 14), (14, 15), (15, 16), (16, 17), (17, 18),
    (18, 19), (19, 20), (1, 4), (1, 5), (2, 5), (3, 6), (5, 8), (7, 10), (9, 12),
    (11, 14), (13, 16), (15, 18), (17, 20), (2, 7), (4, 9), (6, 11), (8, 13), (10, 15), (12, 17), (14, 19)]

/-- the network of `graph_generation_nodes6` (`decentr_geom_median.py` 110-112) -/
def graph6 : NxGraph := (NxGraph.empty.addNodes [1, 6]).addEdges [(1, 2), (1, 3), (2, 3), (2, 4), (3, 4), (4, 5), (4, 6)]

end weights

end Verif
