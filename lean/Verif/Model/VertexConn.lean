/-
Model of the vertex connectivity of a coarse mesh: t8_cmesh_vertex_conn_vertex_to_tree.cxx/.hxx and the constructor of
t8_cmesh_vertex_conn_tree_to_vertex.cxx, both in src/t8_cmesh/t8_cmesh_vertex_connectivity/.

Local trees and ghosts are numbered together, as in the code. `classes` lists the numbers of corners of the local
trees followed by the ghosts. The tree-to-vertex list `ttv` gives the global vertex ids of each tree. A
`std::unordered_map` is a list of pairs with different keys; the order in which it is traversed is arbitrary, so
functions that traverse it are applied to any permutation of the list.
-/
import Verif.Model.Loop
import Mathlib.Data.List.Basic

namespace T8.VertexConn

/-- `tree_vertex_pair`: local tree id, corner. -/
abbrev Pair := Nat × Nat

/-- `vtt_storage_type`, t8_cmesh_vertex_conn_vertex_to_tree.hxx:67. -/
abbrev Vtt := List (Int × List Pair)

/-- `vertex_to_tree[v].push_back (p)`: `operator[]` creates an empty list for a new key. -/
def push : Vtt → Int → Pair → Vtt
  | [], v, p => [(v, [p])]
  | (w, l) :: m, v, p => if w = v then (w, l ++ [p]) :: m else (w, l) :: push m v p

/-- `get_tree_list_of_vertex`, t8_cmesh_vertex_conn_vertex_to_tree.hxx:107-124; `none` if there is no such key (abort). -/
def get (m : Vtt) (v : Int) : Option (List Pair) := (m.find? (fun e => e.1 = v)).map (·.2)

/-- `add_vertex_to_tree`, t8_cmesh_vertex_conn_vertex_to_tree.cxx:71-101, with its assertions. -/
def addVertex (classes : List Nat) (m : Vtt) (v : Int) (tree corner : Nat) : Option Vtt := do
  assertO (0 ≤ v)
  let n ← classes[tree]?
  assertO (corner < n)
  some (push m v (tree, corner))

/-- The inner loop of `build_from_ttv`: `ivertex` counts the corners. -/
def addTree (classes : List Nat) (tree : Nat) : List Int → Nat → Vtt → Option Vtt
  | [], _, m => some m
  | v :: vs, ivertex, m => do
    let m ← addVertex classes m v tree ivertex
    addTree classes tree vs (ivertex + 1) m

/-- The outer loop of `build_from_ttv`. -/
def addTrees (classes : List Nat) : List (List Int) → Nat → Vtt → Option Vtt
  | [], _, m => some m
  | vs :: rest, itree, m => do
    let m ← addTree classes itree vs 0 m
    addTrees classes rest (itree + 1) m

/-- `build_from_ttv`, t8_cmesh_vertex_conn_vertex_to_tree.cxx:34-57. -/
def buildFromTtv (classes : List Nat) (ttv : List (List Int)) : Option Vtt := addTrees classes ttv 0 []

/-- `t8_cmesh_tree_vertex_pair_compare`, t8_cmesh_vertex_conn_vertex_to_tree.cxx:115-121. -/
def pairLess (a b : Pair) : Bool := if a.1 = b.1 then decide (a.2 < b.2) else decide (a.1 < b.1)

/-- What `std::sort` with the comparison `less` may produce. -/
def IsSorted {α : Type} (less : α → α → Bool) (l' l : List α) : Prop :=
  l'.Perm l ∧ l'.Pairwise (fun x y => less y x = false)

/-- What `sort_list_by_tree_id`, t8_cmesh_vertex_conn_vertex_to_tree.cxx:123-137, may produce. -/
def IsSortedMap (m' m : Vtt) : Prop :=
  List.Forall₂ (fun e' e => e'.1 = e.1 ∧ IsSorted pairLess e'.2 e.2) m' m

/-- The counting loops in `contains_all_vertices`, t8_cmesh_vertex_conn_vertex_to_tree.cxx:139-199. `none` if a
check fails. -/
def containsAll (classes : List Nat) (m : Vtt) : Option Bool := do
  let counts ← (m.flatMap (·.2)).foldlM (fun (counts : List Nat) (p : Pair) => do
    let n ← classes[p.1]?
    assertO (p.2 < n)
    let c ← counts[p.1]?
    assertO (1 ≤ c)
    some (counts.set p.1 (c - 1))) classes
  some (counts.all (fun c => c = 0))

/-- The loop over the vertex to tree list in the constructor of `t8_cmesh_vertex_conn_tree_to_vertex`,
t8_cmesh_vertex_conn_tree_to_vertex.cxx:54-63: the pairs (global vertex, corner) collected for a tree. -/
def collect (m : Vtt) (tree : Nat) : List (Int × Nat) :=
  m.flatMap (fun e => (e.2.filter (fun p => p.1 = tree)).map (fun p => (e.1, p.2)))

/-- What the constructor of `t8_cmesh_vertex_conn_tree_to_vertex` from a vertex to tree list,
t8_cmesh_vertex_conn_tree_to_vertex.cxx:31-95, may store for a tree: its collected pairs, sorted by the corner,
provided their number is the number of corners. -/
def IsTtvOf (classes : List Nat) (m : Vtt) (tree : Nat) (vertices : List Int) : Prop :=
  ∃ sorted, IsSorted (fun (a b : Int × Nat) => decide (a.2 < b.2)) sorted (collect m tree) ∧
    classes[tree]? = some sorted.length ∧ vertices = sorted.map (·.1)

end T8.VertexConn
