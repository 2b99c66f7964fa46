/-
Specification: what p4est documents about the functions and tables that the default scheme for quadrilaterals and
hexahedra uses (`p4est_bits.h`, `p4est_connectivity.h` and their `p8est` versions). p4est is not part of the
repository; these statements are assumptions about it. `Documented` is satisfiable (`Lemmas/P4estReference.lean`).

Bit `i` of a corner or child number is the position along coordinate direction `i`. Faces `2i` and `2i+1` are orthogonal to
direction `i`, at the lower and at the upper end.
-/
import Verif.Lemmas.Cube
import Verif.Spec.Element

namespace T8.Cube
open T8.Standalone (Elem)

/-- Corner `k` lies on face `f`. -/
def CornerOnFace (k f : Nat) : Prop := k.testBit (f / 2) = decide (f % 2 = 1)

instance (k f : Nat) : Decidable (CornerOnFace k f) := by unfold CornerOnFace; infer_instance

/-- The functions of p4est do what is documented, for the quadrants of the tree. -/
structure P4est.Documented (c : Cls) (P : P4est c.dim) : Prop where
  isEqual : ∀ x y, Valid c x → Valid c y → (P.isEqual x y = true ↔ x = y)
  /-- "Compare two quadrants in their Morton ordering", ancestors before descendants. -/
  compare : c.tree.CompareSpec P.compare
  /-- The parent of a quadrant is the quadrant of the next coarser level that contains it. -/
  parent : ∀ e, Valid c e → 0 < e.level → Valid c (P.parent e) ∧ (P.parent e).level + 1 = e.level ∧
    Standalone.Box c.rootLevel e ⊆ Standalone.Box c.rootLevel (P.parent e)
  /-- The position of a quadrant in its parent: bit `i` says whether it lies in the upper half of direction `i`. -/
  childId : ∀ e, Valid c e → 0 < e.level → P.childId e < 2 ^ c.dim ∧ ∀ i : Fin c.dim, (P.childId e).testBit i.val =
    decide (((P.parent e).coords i).toNat < (e.coords i).toNat)
  childId_root : P.childId (Standalone.root c.dim) = 0
  ancestorId : ∀ e l, Valid c e → 0 < l → l ≤ e.level → P.ancestorId e l = P.childId (c.tree.anc e l)
  /-- The sibling with the given child id. -/
  sibling : ∀ e i, Valid c e → 0 < e.level → i < 2 ^ c.dim → Valid c (P.sibling e i) ∧ (P.sibling e i).level = e.level ∧
    P.parent (P.sibling e i) = P.parent e ∧ P.childId (P.sibling e i) = i
  /-- The children in the order of their child ids. -/
  children : ∀ e, Valid c e → e.level < c.maxLevel → (P.children e).length = 2 ^ c.dim ∧
    ∀ i x, (P.children e)[i]? = some x → Valid c x ∧ 0 < x.level ∧ P.parent x = e ∧ P.childId x = i
  /-- "Test if 4 quadrants are siblings in Morton ordering." -/
  isFamily : ∀ fam, fam.length = 2 ^ c.dim → (∀ x ∈ fam, Valid c x) →
    (P.isFamily fam = true ↔ ∃ p, c.tree.IsFamilyOf fam p)
  /-- "Set quadrant Morton indices based on linear position in uniform grid." -/
  setMorton : c.tree.SetLinearIdSpec (fun L id => some (P.setMorton L (BitVec.ofNat 64 id)))
  /-- "Compute the linear position of a quadrant in a uniform grid." -/
  linearId : c.tree.LinearIdSpec (fun e L => (P.linearId e L).toNat)
  descendants : c.tree.DescendantSpec P.firstDescendant P.lastDescendant
  /-- "Compute the descendant of a quadrant touching a given corner." -/
  cornerDescendant : ∀ e k l, Valid c e → k < 2 ^ c.dim → e.level ≤ l → l ≤ c.maxLevel →
    Valid c (P.cornerDescendant e k l) ∧ (P.cornerDescendant e k l).level = l ∧
    ∀ i : Fin c.dim, (((P.cornerDescendant e k l).coords i).toNat : Int) + (if k.testBit i.val then 2 ^ (c.rootLevel - l) else 0) =
      (e.coords i).toNat + (if k.testBit i.val then 2 ^ (c.rootLevel - e.level) else 0)
  /-- "Compute the successor according to the Morton index in a uniform mesh." -/
  successor : c.tree.SuccessorSpec (fun e => some (P.successor e))
  nca : c.tree.NcaSpec (fun x y => some (P.nca x y))
  /-- "Compute the face neighbor of a quadrant." It may be outside of the root. -/
  faceNeighbor : ∀ e f, Valid c e → f < 2 * c.dim → (P.faceNeighbor e f).level = e.level ∧
    ∀ i : Fin c.dim, ((P.faceNeighbor e f).coords i).toInt = (e.coords i).toNat +
      (if i.val = f / 2 then (if f % 2 = 1 then 2 ^ (c.rootLevel - e.level) else - 2 ^ (c.rootLevel - e.level)) else 0)
  /-- "Test if a quadrant is inside the unit tree." -/
  isInsideRoot : ∀ e : Elem c.dim, P.isInsideRoot e = true ↔ ∀ i, 0 ≤ (e.coords i).toInt ∧ (e.coords i).toInt < 2 ^ c.rootLevel
  /-- The corners of a face in ascending order. -/
  faceCorners : ∀ f, f < 2 * c.dim →
    (List.range (2 ^ (c.dim - 1))).map (P.faceCorners f) = (List.range (2 ^ c.dim)).filter (fun k => CornerOnFace k f)
  /-- The faces at a corner in ascending order. -/
  cornerFaces : ∀ k, k < 2 ^ c.dim →
    (List.range c.dim).map (P.cornerFaces k) = (List.range (2 * c.dim)).filter (fun f => CornerOnFace k f)
  /-- The face on the other side. -/
  faceDual : ∀ f, f < 2 * c.dim → P.faceDual f / 2 = f / 2 ∧ P.faceDual f % 2 = 1 - f % 2

end T8.Cube
