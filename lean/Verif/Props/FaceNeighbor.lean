/-
C52: the face neighbor of an element, also across the faces of the trees, is again an element of its tree, and the element
is its neighbor in turn.
-/
import Verif.Lemmas.FaceNeighbor
import Verif.Lemmas.FaceCorners
import Verif.Lemmas.P4estReference
import Mathlib.Tactic.IntervalCases

namespace T8.Neighbor
open Element

variable {dim : Nat} {classes : List Eclass} {joins : List Stash.JoinFace}

/-- The neighbor across a joined face of the tree. -/
theorem across {S : P4ests} (D : S.Documented) (hC : Conforming dim classes joins) {t : Int} {e : Element} (ht : 0 ≤ t)
    (hc : classes[t.toNat]? = some e.eclass) (he : e.Valid S) {f : Nat} (hf : f < e.numFaces) {F : Nat}
    (hF : F < e.eclass.numFaces) (hin : e.InRootFace S f F) {t' F' o : Int} (hj : Joined joins t F t' F' o) {nc : Eclass}
    (hnc : classes[t'.toNat]? = some nc) (hl : e.level ≤ maxLevel nc) :
    ∃ n g, faceNeighbor S (Cmesh.commit dim classes joins) t e nc f = some (some (t', n, g)) ∧ n.Valid S ∧ n.eclass = nc ∧
      n.level = e.level ∧ g < n.numFaces ∧ n.InRootFace S g F'.toNat ∧
      faceNeighbor S (Cmesh.commit dim classes joins) t' n e.eclass g = some (some (t, e, f)) ∧
      ∀ b, faceType e.eclass F = some b → ∀ p p', (rootOf e.eclass).InFace S F p → (rootOf nc).InFace S F'.toNat p' →
        Glued S b e.eclass F nc F'.toNat o.toNat p p' → (e.InFace S f p ↔ n.InFace S g p') := by
  obtain ⟨c, c', b, h1, h2, h3, h4, h5, h6, h7, h8, h9, h10, h11, h12⟩ := hC.joined hj
  cases hc.symm.trans h2
  cases hnc.symm.trans h4
  obtain ⟨F', rfl⟩ := Int.eq_ofNat_of_zero_le h7
  obtain ⟨o, rfl⟩ := Int.eq_ofNat_of_zero_le h11
  have hF' : F' < nc.numFaces := by exact_mod_cast h8
  have ho : o < b.numVertices := by exact_mod_cast h12
  rw [Int.toNat_natCast] at h9 h10
  have hd : e.eclass.dim = nc.dim :=
    (hC.dim_eq _ (List.mem_of_getElem? hc)).trans (hC.dim_eq _ (List.mem_of_getElem? hnc)).symm
  obtain ⟨r, i1, i2, _, i4, _⟩ := inside_spec D he hf
  have hr : r = none := i2.2 ⟨F, hF, hin⟩
  subst hr
  have hti := i4 F hF hin
  obtain ⟨be, b1, b2, b3, b4, b5⟩ := extrude_boundary he hf hF hin
  cases h9.symm.trans b2
  have hdim : e.eclass.dim ≤ 3 := by cases e.eclass <;> decide
  have hd2 : be.eclass.dim ≤ 2 := by have := (faceType_vertices b2).2; omega
  obtain ⟨s, s1, s2⟩ := isSmaller_symm hd (F := F) (F' := F')
  have hlen : ∀ c : Eclass, ∀ G, G < c.numFaces → ∃ v, (faceOrientation c)[G]? = some v := by
    intro c G hG
    have : c.numFaces ≤ (faceOrientation c).length := by cases c <;> decide
    exact ⟨_, List.getElem?_eq_getElem (by omega)⟩
  obtain ⟨v1, hv1⟩ := hlen _ F hF
  obtain ⟨v2, hv2⟩ := hlen _ F' hF'
  obtain ⟨b', t1, t2, t3, t4, t5, t6⟩ := transform_spec D b3 hd2 ho (v1 == v2) s
  obtain ⟨n, g, n1, n2, n3, n4, n5, n6, n7⟩ := boundary_extrude t2 hF' (by rw [t3]; exact h10) (by rw [t4, b4]; exact hl)
  obtain ⟨r', k1, k2, _, k4, _⟩ := inside_spec D n3 n5
  have hr' : r' = none := k2.2 ⟨F', by rw [n2]; exact hF', n6⟩
  subst hr'
  have htn := k4 F' (by rw [n2]; exact hF') n6
  refine ⟨n, g, ?_, n3, n2, by rw [n4, t4, b4], n5, by rw [Int.toNat_natCast]; exact n6, ?_, ?_⟩
  · have hcl : (Cmesh.commit dim classes joins).treeClass t = some e.eclass := by rw [treeClass_commit, if_pos ht, hc]
    rw [faceNeighbor, hcl]
    simp only [Option.bind_eq_bind, Option.bind_some, i1, ite_self, hti, faceNeighbor_joined hC hj, Int.toNat_natCast, h9, b1, s1,
      hv1, hv2, t1, n1, assertO, if_true]
  · have hcl : (Cmesh.commit dim classes joins).treeClass t' = some nc := by rw [treeClass_commit, if_pos h3, hnc]
    have hsg : (v2 == v1) = (v1 == v2) := Bool.beq_comm
    rw [faceNeighbor, hcl]
    simp only [Option.bind_eq_bind, Option.bind_some, k1, ite_self, htn, faceNeighbor_joined hC hj.symm, Int.toNat_natCast, h10,
      n7, t3, hv1, hv2, hsg, assertO, if_true]
    rcases s2 with s2 | ⟨e1, e2, s2⟩
    · simp only [s2, t5, b5, Option.bind_some]
    · have e2' : F = F' := by exact_mod_cast e2
      subst e2'
      have hv : v1 = v2 := by
        rw [e1] at hv1
        exact Option.some.inj (hv1.symm.trans hv2)
      simp only [s2, t6 (by rw [hv]; simp), b5, Option.bind_some]
  · intro b hbt p p' hp hp' hg
    cases b2.symm.trans hbt
    rw [Int.toNat_natCast] at hp' hg
    rw [Int.toNat_natCast] at hg
    have hmain := isSmaller_main hd s1
    have hflip := symmetry_flip hd hF hF' b2 hv1 hv2 o
    rw [boundary_points he hf hF hin b1 p hp, boundary_points n3 n5 (by rw [n2]; exact hF') n6 n7 p' (by rw [n2]; exact hp'), n2]
    cases s with
    | true =>
      have := hg.1 (hmain.1 rfl)
      rw [← hflip] at this
      exact transform_points b3 ho t1 (face_has hF b2 hp) this
    | false =>
      have := hg.2 (fun h => by cases hmain.2 h)
      rw [← hflip, ← t3] at this
      exact (transform_points t2 (by rw [t3]; exact ho) t5 (by rw [t3]; exact face_has hF' h10 hp') this).symm

/-- C52: in a committed conforming coarse mesh, the class of the face neighbor of an element is defined for each face, and
there is none exactly at the faces of the trees that are not joined. Otherwise, if the class has the level of the element,
`t8_forest_element_face_neighbor` returns an element of the right class and of the same level in the tree itself or in the tree
beyond the face connection, and the element is the face neighbor of the result in turn, over the returned face. -/
theorem C52_face_neighbor_mutual (S : P4ests) (D : S.Documented) (hC : Conforming dim classes joins) (t : Int) (e : Element)
    (ht : 0 ≤ t) (hc : classes[t.toNat]? = some e.eclass) (he : e.Valid S) (f : Nat) (hf : f < e.numFaces) :
    (neighborEclass S (Cmesh.commit dim classes joins) t e f = some none ∧
      faceNeighbor S (Cmesh.commit dim classes joins) t e e.eclass f = some none ∧
      ∃ F, F < e.eclass.numFaces ∧ e.InRootFace S f F ∧ ∀ t' F' o, ¬ Joined joins t F t' F' o) ∨
    ∃ nc, neighborEclass S (Cmesh.commit dim classes joins) t e f = some (some nc) ∧ (e.level ≤ maxLevel nc →
      ∃ t' n g, faceNeighbor S (Cmesh.commit dim classes joins) t e nc f = some (some (t', n, g)) ∧ 0 ≤ t' ∧
        classes[t'.toNat]? = some nc ∧ n.eclass = nc ∧ n.Valid S ∧ n.level = e.level ∧ g < n.numFaces ∧
        ((t' = t ∧ ∀ F, F < e.eclass.numFaces → ¬ e.InRootFace S f F) ∨
          ∃ F F' : Nat, ∃ o, F < e.eclass.numFaces ∧ F' < nc.numFaces ∧ e.InRootFace S f F ∧ n.InRootFace S g F' ∧
            Joined joins t F t' F' o) ∧
        neighborEclass S (Cmesh.commit dim classes joins) t' n g = some (some e.eclass) ∧
        faceNeighbor S (Cmesh.commit dim classes joins) t' n e.eclass g = some (some (t, e, f))) := by
  have hcl : ∀ {s : Int} {x : Eclass}, 0 ≤ s → classes[s.toNat]? = some x →
      (Cmesh.commit dim classes joins).treeClass s = some x := by
    intro s x h1 h2
    rw [treeClass_commit, if_pos h1, h2]
  -- the class of the neighbor
  have hout : ∀ {s : Int} {x : Element}, 0 ≤ s → classes[s.toNat]? = some x.eclass → x.Valid S → ∀ {k F : Nat},
      k < x.numFaces → F < x.eclass.numFaces → x.InRootFace S k F →
      neighborEclass S (Cmesh.commit dim classes joins) s x k = (Cmesh.commit dim classes joins).faceNeighborClass s F := by
    intro s x h1 h2 hx k F hk hF hin
    obtain ⟨_, _, _, i3, i4, _⟩ := inside_spec D hx hk
    rw [neighborEclass, hcl h1 h2]
    simp only [i3.2 ⟨F, hF, hin⟩, i4 F hF hin, Option.bind_eq_bind, Option.bind_some, Bool.not_true, Bool.false_eq_true, if_false]
    rw [assertO, if_pos ⟨by omega, by exact_mod_cast hF⟩]
    rfl
  have hinn : ∀ {s : Int} {x : Element}, 0 ≤ s → classes[s.toNat]? = some x.eclass → x.Valid S → ∀ {k : Nat},
      k < x.numFaces → (¬ ∃ F, F < x.eclass.numFaces ∧ x.InRootFace S k F) →
      neighborEclass S (Cmesh.commit dim classes joins) s x k = some (some x.eclass) := by
    intro s x h1 h2 hx k hk hno
    obtain ⟨_, _, _, i3, _⟩ := inside_spec D hx hk
    have : x.isRootBoundary S k = false := by
      rw [← Bool.not_eq_true]; exact fun h => hno (i3.1 h)
    rw [neighborEclass, hcl h1 h2]
    simp [this]
  have hfnc : ∀ {s F s' F' o : Int} {x : Eclass}, Joined joins s F s' F' o → 0 ≤ s' → classes[s'.toNat]? = some x →
      (Cmesh.commit dim classes joins).faceNeighborClass s F = some (some x) := by
    intro s F s' F' o x hj h1 h2
    rw [Cmesh.faceNeighborClass, faceNeighbor_joined hC hj]
    show Option.map some _ = _
    rw [hcl h1 h2]; rfl
  by_cases hb : ∃ F, F < e.eclass.numFaces ∧ e.InRootFace S f F
  · obtain ⟨F, hF, hin⟩ := hb
    by_cases hj : ∃ t' F' o, Joined joins t F t' F' o
    · right
      obtain ⟨t', F', o, hj⟩ := hj
      obtain ⟨c, nc, b, h1, h2, h3, h4, h5, h6, h7, h8, _⟩ := hC.joined hj
      refine ⟨nc, by rw [hout ht hc he hf hF hin]; exact hfnc hj h3 h4, fun hl => ?_⟩
      obtain ⟨n, g, k1, k2, k3, k4, k5, k6, k7, _⟩ := across D hC ht hc he hf hF hin hj h4 hl
      have hF' : F'.toNat < nc.numFaces := by omega
      have hcast : ((F'.toNat : Nat) : Int) = F' := Int.toNat_of_nonneg h7
      refine ⟨t', n, g, k1, h3, h4, k3, k2, k4, k5, Or.inr ⟨F, F'.toNat, o, hF, hF', hin, k6, by rw [hcast]; exact hj⟩, ?_, k7⟩
      rw [hout h3 (by rw [k3]; exact h4) k2 k5 (by rw [k3]; exact hF') k6, hcast]
      exact hfnc hj.symm ht hc
    · left
      have hnone : (Cmesh.commit dim classes joins).faceNeighbor t F = none := by
        refine faceNeighbor_boundary (by omega) ?_ (fun h => hj (mem_sides.1 h))
        have := numFaces_le_max e.eclass
        have := maxNumFaces_le e.eclass.dim
        omega
      obtain ⟨r, i1, i2, i3, i4, _⟩ := inside_spec D he hf
      have hr : r = none := i2.2 ⟨F, hF, hin⟩
      subst hr
      refine ⟨?_, ?_, F, hF, hin, fun t' F' o h => hj ⟨t', F', o, h⟩⟩
      · rw [hout ht hc he hf hF hin, Cmesh.faceNeighborClass, hnone]
      · rw [faceNeighbor, hcl ht hc]
        simp only [Option.bind_eq_bind, Option.bind_some, if_true, i1, i4 F hF hin, hnone]
  · right
    refine ⟨e.eclass, hinn ht hc he hf hb, fun _ => ?_⟩
    obtain ⟨r, i1, i2, i3, i4, i5⟩ := inside_spec D he hf
    cases r with
    | none => exact absurd (i2.1 rfl) hb
    | some r =>
      obtain ⟨n, g⟩ := r
      obtain ⟨k1, k2, k3, k4, k5, _⟩ := i5 n g rfl
      have hc' : classes[t.toNat]? = some n.eclass := by rw [k2]; exact hc
      have hnb : ¬ ∃ F, F < n.eclass.numFaces ∧ n.InRootFace S g F := by
        obtain ⟨r', m1, m2, _⟩ := inside_spec D k1 k4
        rw [k5] at m1
        cases m1
        intro h
        cases m2.2 h
      refine ⟨t, n, g, ?_, ht, hc, k2, k1, k3, k4, Or.inl ⟨rfl, fun F hF h => hb ⟨F, hF, h⟩⟩, ?_, ?_⟩
      · rw [faceNeighbor, hcl ht hc]
        simp only [Option.bind_eq_bind, Option.bind_some, if_true, i1]
      · rw [hinn ht hc' k1 k4 hnb, k2]
      · rw [faceNeighbor, hcl ht hc]
        simp only [Option.bind_eq_bind, Option.bind_some, if_true, k5]

/-- C53: the face neighbor lies on the other side of the face. Inside of the tree it is a different element with the same
points in its face. In another tree the points in its face are those that are the same points of the mesh as the points in the
face of the element, according to the definition of the orientation of a face connection. -/
theorem C53_face_neighbor_glued (S : P4ests) (D : S.Documented) (hC : Conforming dim classes joins) (t : Int) (e : Element)
    (ht : 0 ≤ t) (hc : classes[t.toNat]? = some e.eclass) (he : e.Valid S) (f : Nat) (hf : f < e.numFaces) (nc : Eclass)
    (hl : e.level ≤ maxLevel nc) (hnc : neighborEclass S (Cmesh.commit dim classes joins) t e f = some (some nc)) (t' : Int)
    (n : Element) (g : Nat) (hn : faceNeighbor S (Cmesh.commit dim classes joins) t e nc f = some (some (t', n, g))) :
    (t' = t ∧ n.eclass = e.eclass ∧ n ≠ e ∧ ∀ p, n.InFace S g p ↔ e.InFace S f p) ∨
    ∃ F F' o : Nat, ∃ b, Joined joins t F t' F' o ∧ faceType e.eclass F = some b ∧ faceType nc F' = some b ∧
      e.InRootFace S f F ∧ n.InRootFace S g F' ∧
      ∀ p p', (rootOf e.eclass).InFace S F p → (rootOf nc).InFace S F' p' → Glued S b e.eclass F nc F' o p p' →
        (e.InFace S f p ↔ n.InFace S g p') := by
  by_cases hb : ∃ F, F < e.eclass.numFaces ∧ e.InRootFace S f F
  · right
    obtain ⟨F, hF, hin⟩ := hb
    rcases C52_face_neighbor_mutual S D hC t e ht hc he f hf with ⟨h, _⟩ | ⟨nc', h1, h2⟩
    · rw [hnc] at h; cases h
    rw [hnc] at h1
    cases h1
    obtain ⟨t1, n1, g1, k1, k2, k3, _, _, _, _, k8, _⟩ := h2 hl
    rw [hn] at k1
    cases k1
    rcases k8 with ⟨_, h⟩ | ⟨G, G', o, hG, hG', hin', hin2, hj⟩
    · exact absurd hin (h F hF)
    obtain ⟨c, c', b, a1, a2, a3, a4, a5, a6, a7, a8, a9, a10, a11, a12⟩ := hC.joined hj
    cases hc.symm.trans a2
    cases k3.symm.trans a4
    obtain ⟨n2, g2, m1, _, _, _, _, _, _, m8⟩ := across D hC ht hc he hf hG hin' hj k3 hl
    rw [hn] at m1
    cases m1
    obtain ⟨o, rfl⟩ := Int.eq_ofNat_of_zero_le a11
    simp only [Int.toNat_natCast] at a9 a10 m8
    exact ⟨G, G', o, b, hj, a9, a10, hin', hin2, m8 b a9⟩
  · left
    obtain ⟨r, i1, i2, i3, i4, i5⟩ := inside_spec D he hf
    cases r with
    | none => exact absurd (i2.1 rfl) hb
    | some r =>
      obtain ⟨n1, g1⟩ := r
      obtain ⟨k1, k2, k3, k4, k5, k6, k7⟩ := i5 n1 g1 rfl
      have hcl : (Cmesh.commit dim classes joins).treeClass t = some e.eclass := by rw [treeClass_commit, if_pos ht, hc]
      have hnc' : nc = e.eclass := by
        have : e.isRootBoundary S f = false := by
          rw [← Bool.not_eq_true]; exact fun h => hb (i3.1 h)
        rw [neighborEclass, hcl] at hnc
        simp [this] at hnc
        exact hnc.symm
      subst hnc'
      rw [faceNeighbor, hcl] at hn
      simp only [Option.bind_eq_bind, Option.bind_some, if_true, i1, Option.some.injEq, Prod.mk.injEq] at hn
      obtain ⟨rfl, rfl, rfl⟩ := hn
      exact ⟨rfl, k2, k6, k7⟩

/-- The coordinates in the faces send the corners of the faces, in their order, to the corners of the face classes. -/
theorem C53_face_corners (S : P4ests) (c b : Eclass) (F i : Nat) (hF : F < c.numFaces) (hb : faceType c F = some b)
    (hi : i < b.numVertices) (p : Fin 3 → Nat)
    (hp : ∀ k, p k = rootLength S c k.val * unit c (((faceVertices c).getD F []).getD i 0) k.val) :
    (rootOf c).InFace S F p ∧ faceCoord S c F p = (rootLength S b 0 * unit b i 0, rootLength S b 1 * unit b i 1) := by
  cases c with
  | vertex => exact absurd hF (by simp [Eclass.numFaces])
  | line => exact line_corners S b F i hF hb hi p hp
  | quad => exact quad_corners S b F i hF hb hi p hp
  | triangle => exact triangle_corners S b F i hF hb hi p hp
  | hex => exact hex_corners S b F i hF hb hi p hp
  | tet => exact tet_corners S b F i hF hb hi p hp
  | prism => exact prism_corners S b F i hF hb hi p hp
  | pyramid => exact pyramid_corners S b F i hF hb hi p hp

/-- The symmetries send corner 0 to the corner that is given by the orientation. -/
theorem C53_symmetry_corner (S : P4ests) (b : Eclass) (hb : b.dim ≤ 2) (o : Nat) (ho : o < b.numVertices) (flip : Bool) :
    symmetry b o flip (0, 0) = (((rootLength S b 0 * unit b o 0 : Nat) : Int), ((rootLength S b 1 * unit b o 1 : Nat) : Int)) := by
  cases b with
  | vertex => have : o = 0 := by simp [Eclass.numVertices] at ho; omega
              subst this; rfl
  | line =>
    have : o < 2 := ho
    interval_cases o <;> simp only [rootLength] <;> cases flip <;> decide +kernel
  | quad =>
    have : o < 4 := ho
    interval_cases o <;> cases flip <;> simp only [rootLength] <;> decide +kernel
  | triangle =>
    have : o < 3 := ho
    interval_cases o <;> cases flip <;> simp only [rootLength] <;> decide +kernel
  | _ => exact absurd hb (by decide)

/-! ### A concrete case -/

/-- The reference version of p4est. -/
noncomputable def reference : P4ests where
  M := 19
  hM := by decide
  quad := Cube.Cls.quad.reference
  hex := (Cube.Cls.hex 19 (by decide)).reference

/-- The hypotheses hold: there is a documented p4est, a mesh of a prism, a pyramid, a tetrahedron and a hexahedron is conforming, and
there is an element of level 2 at a connected face of the prism. -/
example : reference.Documented ∧
    Conforming 3 [.prism, .pyramid, .tet, .hex]
      [⟨0, 1, 0, 4, 2⟩, ⟨0, 1, 3, 1, 1⟩, ⟨1, 2, 2, 3, 2⟩, ⟨0, 3, 2, 5, 3⟩] := by
  refine ⟨⟨Cube.Cls.quad.reference_documented, (Cube.Cls.hex 19 (by decide)).reference_documented⟩, by decide, by decide, ?_, by decide⟩
  intro j hj
  simp only [List.mem_cons, List.not_mem_nil, or_false] at hj
  rcases hj with rfl | rfl | rfl | rfl
  · exact ⟨.prism, .pyramid, .quad, by decide⟩
  · exact ⟨.prism, .pyramid, .triangle, by decide⟩
  · exact ⟨.pyramid, .tet, .triangle, by decide⟩
  · exact ⟨.prism, .hex, .quad, by decide⟩

/-- A face neighbor of level 2: a pyramid beyond a face of the prism. -/
example (S : P4ests) : ∃ n g, faceNeighbor S (Cmesh.commit 3 [.prism, .pyramid] [⟨0, 1, 0, 4, 2⟩]) 0
      (.prism (Prism.child (Prism.child Prism.root 1) 2)) .pyramid 0 = some (some (1, .pyramid n, g)) ∧ n.level = 2 := by
  exact ⟨_, _, rfl, rfl⟩

end T8.Neighbor
