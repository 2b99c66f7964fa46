/-
Model of `t8_forest_iterate_faces`, src/t8_forest/t8_forest_iterate.cxx:94-193.

The callback is an arbitrary function of everything that happened before: it is given the history of all calls and answers. The function
returns the history. Memory management is not modelled.
-/
import Verif.Model.LeafSearch
import Verif.Spec.FaceIterate

namespace T8.FaceIterate
open T8.Leaf

variable {T : RTree}

/-- `t8_forest_element_is_leaf_or_ghost`, src/t8_forest/t8_forest.cxx:2164-2189. `all` are the leaves of the local tree or of the
ghost tree. -/
def isLeafOrGhost (S : Scheme T) (all : List T.E) (element : T.E) : Option Bool := do
  let r ← arrayFind S all element
  some (decide (r ≥ 0))

/-- The assertions of the debug version on the leaves, t8_forest_iterate.cxx:131-144. -/
def checkLeaves (S : Scheme T) (all : List T.E) (element : T.E) (leaves : List T.E) (isLeaf : Bool) : Option Unit :=
  if isLeaf then some ()
  else do
    let leaf ← rd leaves 0
    let b ← isLeafOrGhost S all leaf
    assertO (b = true)
    assertO (T.level element < T.level leaf)
    assertO (∀ x ∈ leaves, S.isAncestor element x = true)

/-- `t8_forest_iterate_faces`, t8_forest_iterate.cxx:94-193. `leaves` is the array `leaf_elements`. -/
def iterateFaces (S : Scheme T) (F : FaceScheme T) (callback : FaceFn T) (ltreeid : Nat) (all : List T.E) (element : T.E)
    (face : Nat) (leaves : List T.E) (first : Nat) (h : FaceRecord T) : Option (FaceRecord T) :=
  if leaves.length = 0 then some h
  else do
    let isLeaf ← isLeafOrGhost S all element
    checkLeaves S all element leaves isLeaf
    let c : FaceCall T := ⟨ltreeid, element, face, isLeaf, leaves, first⟩
    let ret := callback h c
    let h1 := h ++ [(c, ret)]
    if !ret ∨ isLeaf then some h1
    else do
      let faceChildren := F.childrenAtFace element face
      let childIndices := F.childIdsAtFace element face
      let offsets ← splitArray S element leaves
      (List.range (F.numFaceChildren element face)).foldlM (fun h iface => do
          let ci ← childIndices[iface]?
          assertO (ci < T.nc element + 1)
          let indexa ← offsets[ci]?
          let indexb ← offsets[ci + 1]?
          if indexa < indexb then do
            let child ← faceChildren[iface]?
            iterateFaces S F callback ltreeid all child (F.childFace element face iface)
              ((leaves.drop indexa).take (indexb - indexa)) (indexa + first) h
          else some h) h1
partial_fixpoint

end T8.FaceIterate
