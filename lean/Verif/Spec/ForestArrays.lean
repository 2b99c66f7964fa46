/-
Specification: what one process stores of a distributed forest.

This file mentions no definition of the model.
-/
import Verif.Spec.Owner

namespace T8.Spec

/-- The part of a forest that one process stores (src/t8_forest/t8_forest_types.h): `first_local_tree`, `last_local_tree`,
`local_num_leaf_elements` and the local trees. A tree is given by its leaves; its global number tells which refinement tree it has. -/
structure LocalForest (T : Nat → RTree) where
  firstLocalTree : Int
  lastLocalTree : Int
  localNum : Int
  trees : List (Σ g, List (T g).E)

/-- The leaves of the local trees, in order. -/
def LocalForest.leaves {T : Nat → RTree} (f : LocalForest T) : List (Σ g, (T g).E) := f.trees.flatMap (fun t => t.2.map (Sigma.mk t.1))

variable {T : Nat → RTree} {P K L : Nat}

/-- Process `p` stores its part of the forest `D`: its leaves, in consecutive trees that all have leaves. -/
structure DistForest.IsPart (D : DistForest T P K L) (p : Nat) (f : LocalForest T) : Prop where
  leaves : f.leaves = D.localLeaves p
  num : f.localNum = (D.localLeaves p).length
  nonempty : ∀ t ∈ f.trees, t.2 ≠ []
  index : ∀ (i : Nat) t, f.trees[i]? = some t → (t.1 : Int) = f.firstLocalTree + i
  last : f.lastLocalTree = f.firstLocalTree + f.trees.length - 1
  bounds : 0 ≤ f.firstLocalTree ∧ f.firstLocalTree ≤ K

end T8.Spec
