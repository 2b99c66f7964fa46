/-
Specification: which leaves share a face, and which leaves a process must send to another one so that every process knows the leaves that
share a face with one of its own.
-/
import Verif.Spec.Balance
import Verif.Spec.Face
import Verif.Spec.Owner

namespace T8.GhostSpec
open T8.BalanceSpec T8.Spec

variable {T : Nat → RTree} (nb : Neighbors T) (In : ∀ g, (T g).E → Nat → (T g).E → Nat → Prop) (faces : (g : Nat) → (T g).E → Nat)

/-- The leaf `y` shares a face with the leaf `x`: it contains the neighbor of `x` of the same level across a face, or it is inside of it and
has a face in the common face. `faces` is the number of faces of an element. -/
def SharesFace (x y : Leaf T) : Prop :=
  ∃ f n, f < faces x.1 x.2 ∧ nb x.1 x.2 f = some n ∧ ∃ ht : n.tree = y.1,
    (T y.1).Desc y.2 (ht ▸ n.elem) ∨ ((T y.1).Desc (ht ▸ n.elem) y.2 ∧ ∃ k, In y.1 y.2 k (ht ▸ n.elem) n.face)

/-- The leaf `x` shares a face with a leaf of process `q`. -/
def Touches {P K L : Nat} (D : DistForest T P K L) (q : Nat) (x : Leaf T) : Prop :=
  q < P ∧ ∃ y ∈ D.localLeaves q, SharesFace nb In faces x y

open Classical in
/-- The leaves of process `q` that must be in the ghost layer of process `p`: those that share a face with a leaf of process `p`. -/
noncomputable def ghostsFrom {P K L : Nat} (D : DistForest T P K L) (p q : Nat) : List (Leaf T) :=
  (D.localLeaves q).filter (fun x => decide (p ≠ q ∧ Touches nb In faces D p x))

open Classical in
/-- The processes that process `p` must receive ghosts from, in order. -/
noncomputable def ghostOwners {P K L : Nat} (D : DistForest T P K L) (p : Nat) : List Nat :=
  (List.range P).filter (fun q => decide (ghostsFrom nb In faces D p q ≠ []))

/-- What is known about neighbors of the same level, for elements up to level `L`. -/
structure Neighborhood (K L : Nat) : Prop where
  /-- The neighbor is an element of the same level of a tree of the forest, and the common face is one of its faces. -/
  valid : ∀ g e f n, g < K → (T g).Valid e → (T g).level e ≤ L → f < faces g e → nb g e f = some n → n.tree < K ∧ (T n.tree).Valid n.elem ∧
    (T n.tree).level n.elem = (T g).level e ∧ n.face < faces n.tree n.elem
  /-- Across a face inside of the parent there is a sibling. -/
  inner : ∀ g e f, g < K → (T g).Valid e → (T g).level e ≤ L → f < faces g e → 0 < (T g).level e → (¬ ∃ f', In g e f ((T g).parent e) f') →
    ∃ n k, nb g e f = some ⟨g, n, k⟩ ∧ (T g).parent n = (T g).parent e
  /-- Across a face in a face of the parent there is a child of the neighbor of the parent with a face in the common face, and none if the
  parent has no neighbor there. -/
  outer : ∀ g e f f', g < K → (T g).Valid e → (T g).level e ≤ L → f < faces g e → 0 < (T g).level e → In g e f ((T g).parent e) f' →
    (nb g ((T g).parent e) f' = none → nb g e f = none) ∧
    ∀ h m k, nb g ((T g).parent e) f' = some ⟨h, m, k⟩ → ∃ n j, nb g e f = some ⟨h, n, j⟩ ∧ (T h).parent n = m ∧ In h n j m k
  /-- Being neighbors is mutual. -/
  back : ∀ g e f h n j, g < K → (T g).Valid e → (T g).level e ≤ L → f < faces g e → nb g e f = some ⟨h, n, j⟩ → nb h n j = some ⟨g, e, f⟩

end T8.GhostSpec
