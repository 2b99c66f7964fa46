/-
Lemmas for C55: the neighbor of the parent across a face of the tree is the parent of the neighbor.
-/
import Verif.Lemmas.FaceParent
import Verif.Spec.DefaultForest
import Verif.Props.FaceNeighbor

namespace T8.Neighbor
open Element

variable {dim : Nat} {classes : List Eclass} {joins : List Stash.JoinFace}

/-- The arguments of `element_transform_face`, which depend on the two faces of trees only. -/
def signOf (c : Eclass) (F : Nat) (nc : Eclass) (F' : Nat) : Bool := (faceOrientation c)[F]? == (faceOrientation nc)[F']?

def smallerOf (c : Eclass) (F : Nat) (nc : Eclass) (F' : Nat) : Bool := (isSmaller c nc F F').getD false

theorem across_boundary {S : P4ests} (D : S.Documented) (hC : Conforming dim classes joins) {t : Int} {e : Element} (ht : 0 ≤ t)
    (hc : classes[t.toNat]? = some e.eclass) (he : e.Valid S) {f : Nat} (hf : f < e.numFaces) {F : Nat}
    (hF : F < e.eclass.numFaces) (hin : e.InRootFace S f F) {t' F' o : Int} (hj : Joined joins t F t' F' o) {nc : Eclass}
    (hnc : classes[t'.toNat]? = some nc) (hl : e.level ≤ maxLevel nc) :
    ∃ n g b b', neighborIn S (Cmesh.commit dim classes joins) t e f = some (t', n, g) ∧ n.Valid S ∧ n.eclass = nc ∧
      n.level = e.level ∧ g < n.numFaces ∧ n.InRootFace S g F'.toNat ∧
      e.boundaryFace S f = some b ∧ b.Valid S ∧ b.level = e.level ∧ o.toNat < b.eclass.numVertices ∧
      b.transformFace o.toNat (signOf e.eclass F nc F'.toNat) (smallerOf e.eclass F nc F'.toNat) = some b' ∧
      n.boundaryFace S g = some b' := by
  obtain ⟨c, c', b, h1, h2, h3, h4, h5, h6, h7, h8, h9, h10, h11, h12⟩ := hC.joined hj
  cases hc.symm.trans h2
  cases hnc.symm.trans h4
  obtain ⟨F', rfl⟩ := Int.eq_ofNat_of_zero_le h7
  obtain ⟨o, rfl⟩ := Int.eq_ofNat_of_zero_le h11
  have hF' : F' < nc.numFaces := by exact_mod_cast h8
  have ho : o < b.numVertices := by exact_mod_cast h12
  rw [Int.toNat_natCast] at h9 h10
  have hd : e.eclass.dim = nc.dim :=
    (hC.dim_eq _ (List.mem_of_getElem? hc)).trans (hC.dim_eq _ (List.mem_of_getElem? hnc)).symm
  obtain ⟨r, i1, i2, i3, i4, _⟩ := inside_spec D he hf
  have hr : r = none := i2.2 ⟨F, hF, hin⟩
  subst hr
  have hti := i4 F hF hin
  obtain ⟨be, b1, b2, b3, b4, b5⟩ := extrude_boundary he hf hF hin
  cases h9.symm.trans b2
  have hdim : e.eclass.dim ≤ 3 := by cases e.eclass <;> decide
  have hd2 : be.eclass.dim ≤ 2 := by have := (faceType_vertices b2).2; omega
  obtain ⟨s, s1, s2⟩ := isSmaller_symm hd (F := F) (F' := F')
  have hlen : ∀ c : Eclass, ∀ G, G < c.numFaces → ∃ v, (faceOrientation c)[G]? = some v := by
    intro c G hG
    have : c.numFaces ≤ (faceOrientation c).length := by cases c <;> decide
    exact ⟨_, List.getElem?_eq_getElem (by omega)⟩
  obtain ⟨v1, hv1⟩ := hlen _ F hF
  obtain ⟨v2, hv2⟩ := hlen _ F' hF'
  obtain ⟨b', t1, t2, t3, t4, t5, t6⟩ := transform_spec D b3 hd2 ho (v1 == v2) s
  obtain ⟨n, g, n1, n2, n3, n4, n5, n6, n7⟩ := boundary_extrude t2 hF' (by rw [t3]; exact h10) (by rw [t4, b4]; exact hl)
  have e1 : signOf e.eclass F nc F' = (v1 == v2) := by rw [signOf, hv1, hv2]; rfl
  have e2 : smallerOf e.eclass F nc F' = s := by rw [smallerOf, s1]; rfl
  refine ⟨n, g, be, b', ?_, n3, n2, by rw [n4, t4, b4], n5, by rw [Int.toNat_natCast]; exact n6, b1, b3, b4, ho, ?_, n7⟩
  · have hcl : (Cmesh.commit dim classes joins).treeClass t = some e.eclass := by rw [treeClass_commit, if_pos ht, hc]
    have hcl' : (Cmesh.commit dim classes joins).treeClass t' = some nc := by rw [treeClass_commit, if_pos h3, hnc]
    have hec : neighborEclass S (Cmesh.commit dim classes joins) t e f = some (some nc) := by
      rw [neighborEclass, hcl]
      simp only [i3.2 ⟨F, hF, hin⟩, hti, Option.bind_eq_bind, Option.bind_some, Bool.not_true, Bool.false_eq_true, if_false]
      rw [assertO, if_pos ⟨by omega, by exact_mod_cast hF⟩, Cmesh.faceNeighborClass, faceNeighbor_joined hC hj]
      show Option.map some _ = _
      rw [hcl']; rfl
    rw [neighborIn, hec]
    have : faceNeighbor S (Cmesh.commit dim classes joins) t e nc f = some (some (t', n, g)) := by
      rw [faceNeighbor, hcl]
      simp only [Option.bind_eq_bind, Option.bind_some, i1, ite_self, hti, faceNeighbor_joined hC hj, Int.toNat_natCast, h9, b1, s1,
        hv1, hv2, t1, n1, assertO, if_true]
    simp only [this]
    rfl
  · rw [Int.toNat_natCast, Int.toNat_natCast, e1, e2]; exact t1

/-- At a face of the tree that is not joined there is no neighbor. -/
theorem neighborIn_boundary {S : P4ests} (D : S.Documented) {t : Int} {e : Element} (ht : 0 ≤ t)
    (hc : classes[t.toNat]? = some e.eclass) (he : e.Valid S) {f : Nat} (hf : f < e.numFaces) {F : Nat}
    (hF : F < e.eclass.numFaces) (hin : e.InRootFace S f F) (hj : ∀ t' F' o, ¬ Joined joins t F t' F' o) :
    neighborIn S (Cmesh.commit dim classes joins) t e f = none := by
  have hnone : (Cmesh.commit dim classes joins).faceNeighbor t F = none := by
    refine faceNeighbor_boundary (by omega) ?_ (fun h => ?_)
    · have := numFaces_le_max e.eclass
      have := maxNumFaces_le e.eclass.dim
      omega
    · obtain ⟨t', F', o, h⟩ := mem_sides.1 h
      exact hj _ _ _ h
  obtain ⟨r, i1, i2, i3, i4, _⟩ := inside_spec D he hf
  have hcl : (Cmesh.commit dim classes joins).treeClass t = some e.eclass := by rw [treeClass_commit, if_pos ht, hc]
  have hec : neighborEclass S (Cmesh.commit dim classes joins) t e f = some none := by
    rw [neighborEclass, hcl]
    simp only [i3.2 ⟨F, hF, hin⟩, i4 F hF hin, Option.bind_eq_bind, Option.bind_some, Bool.not_true, Bool.false_eq_true, if_false]
    rw [assertO, if_pos ⟨by omega, by exact_mod_cast hF⟩, Cmesh.faceNeighborClass, hnone]
    rfl
  rw [neighborIn, hec]

/-- The neighbor inside of the tree. -/
theorem neighborIn_inside {S : P4ests} (D : S.Documented) {t : Int} {e : Element} (ht : 0 ≤ t)
    (hc : classes[t.toNat]? = some e.eclass) (he : e.Valid S) {f : Nat} (hf : f < e.numFaces) {n : Element} {g : Nat}
    (hn : e.neighborInside S f = some (some (n, g))) : neighborIn S (Cmesh.commit dim classes joins) t e f = some (t, n, g) := by
  obtain ⟨r, i1, i2, i3, i4, _⟩ := inside_spec D he hf
  cases hn.symm.trans i1
  have hcl : (Cmesh.commit dim classes joins).treeClass t = some e.eclass := by rw [treeClass_commit, if_pos ht, hc]
  have hb : e.isRootBoundary S f = false := by
    rw [← Bool.not_eq_true]
    intro h
    cases i2.2 (i3.1 h)
  have hec : neighborEclass S (Cmesh.commit dim classes joins) t e f = some (some e.eclass) := by
    rw [neighborEclass, hcl]
    simp [hb]
  rw [neighborIn, hec]
  have : faceNeighbor S (Cmesh.commit dim classes joins) t e e.eclass f = some (some (t, n, g)) := by
    rw [faceNeighbor, hcl]
    simp only [Option.bind_eq_bind, Option.bind_some, if_true, hn]
  simp only [this]
  rfl

end T8.Neighbor
