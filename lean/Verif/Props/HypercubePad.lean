/-
Property C63: `t8_cmesh_new_hypercube_pad_ext` divides the box into the trees of a conforming mesh.
-/
import Verif.Lemmas.HypercubeMesh
import Verif.Lemmas.HypercubeVertices3
import Mathlib.Analysis.Real.Sqrt
import Mathlib.Tactic.Positivity

namespace T8.HypercubePad
open Neighbor Geometry

/-! ### The face connections -/

/-- C63: the face connections are those of a conforming mesh, two faces are connected exactly if they are the same face of the grid (up to
the translations of the periodic directions), and the orientation says which vertices are the same. -/
theorem C63_joins (S : P4ests) {c : Eclass} (hc : c ≠ .pyramid) {nx ny nz : Nat} {px py pz : Bool} (hn : Counts c.dim nx ny nz px py pz) :
    ∃ js, joins c nx ny nz px py pz 0 = some js ∧ Conforming c.dim (classes c nx ny nz) js ∧
      (∀ t F t' F' : Nat, t < nx * ny * nz * treesPerCube c → t' < nx * ny * nz * treesPerCube c → F < c.numFaces → F' < c.numFaces →
        ((∃ o, Joined js t F t' F' o) ↔
          (t, F) ≠ (t', F') ∧ ∃ L, Period ![nx, ny, nz] ![px, py, pz] L ∧ SameFace c nx ny t F t' F' L)) ∧
      ∀ (t F t' F' o : Nat) (b : Eclass), Joined js t F t' F' o → faceType c F = some b →
        ∃ L, Period ![nx, ny, nz] ![px, py, pz] L ∧ SameFace c nx ny t F t' F' L ∧
          Matched S b c F c F' o (fun v k => (gridVertex c nx ny t v k : ℚ)) (fun v k => ((gridVertex c nx ny t' v + L) k : ℚ)) := by
  have hm : 0 < treesPerCube c := by cases c <;> decide
  refine ⟨_, joins_entries hc hn.x.1 hn.y.1 hn.z.1 hn.x.2 hn.y.2 hn.z.2, conforming hc, ?_, ?_⟩
  · intro t F t' F' ht ht' hF hF'
    obtain ⟨q, s, hq, hs, rfl⟩ := tree_exists hm ht
    obtain ⟨q', s', hq', hs', rfl⟩ := tree_exists hm ht'
    constructor
    · rintro ⟨o, h⟩
      obtain ⟨d, q₁, k, hd, hq₁, hk, _, h⟩ := joined_iff.1 h
      have hv := cubes_valid hq₁
      obtain ⟨ks, ks', _⟩ := kinds_ok hd hk
      obtain ⟨L, hL, e⟩ := shift hd hq₁
      have hsame := kind_same hd hk hv e
      have hu := (kinds_unique hd hd hk hk).2.1
      rcases h with ⟨a1, a2, a3, a4⟩ | ⟨a1, a2, a3, a4⟩
      · have b1 : treeId c nx ny q s = treeId c nx ny q₁ k.s := by exact_mod_cast a1
        have b3 : treeId c nx ny q' s' = treeId c nx ny (next nx ny nz d q₁) k.s' := by exact_mod_cast a3
        have b2 : F = k.F := by exact_mod_cast a2
        have b4 : F' = k.F' := by exact_mod_cast a4
        rw [b1, b2, b3, b4]
        refine ⟨fun hh => ?_, L, hL, hsame⟩
        obtain ⟨h1, h2⟩ := Prod.mk.inj hh
        exact hu (treeId_inj hv (next_valid hd hv) ks ks' h1).2 h2
      · have b1 : treeId c nx ny q' s' = treeId c nx ny q₁ k.s := by exact_mod_cast a1
        have b3 : treeId c nx ny q s = treeId c nx ny (next nx ny nz d q₁) k.s' := by exact_mod_cast a3
        have b2 : F' = k.F := by exact_mod_cast a2
        have b4 : F = k.F' := by exact_mod_cast a4
        rw [b1, b2, b3, b4]
        refine ⟨fun hh => ?_, -L, hL.neg, hsame.symm⟩
        obtain ⟨h1, h2⟩ := Prod.mk.inj hh
        exact hu (treeId_inj hv (next_valid hd hv) ks ks' h1.symm).2 h2.symm
    · rintro ⟨hne, L, hL, h⟩
      rcases same_kind hc hq hq' hs hs' hF hF' hL h with ⟨rfl, rfl, rfl⟩ | ⟨d, hd, k, hk, ⟨rfl, rfl, rfl, rfl, h1, rfl⟩ | ⟨rfl, rfl, rfl, rfl, h1, rfl⟩⟩
      · exact absurd rfl hne
      · exact ⟨k.o, joined_iff.2 ⟨d, q, k, hd, h1, hk, rfl, Or.inl ⟨rfl, rfl, rfl, rfl⟩⟩⟩
      · exact ⟨k.o, joined_iff.2 ⟨d, q', k, hd, h1, hk, rfl, Or.inr ⟨rfl, rfl, rfl, rfl⟩⟩⟩
  · intro t F t' F' o b hJ hb
    obtain ⟨d, q, k, hd, hq, hk, ho, h⟩ := joined_iff.1 hJ
    have hv := cubes_valid hq
    obtain ⟨ks, ks', kF, kF', kb, _⟩ := kinds_ok hd hk
    obtain ⟨L, hL, e⟩ := shift hd hq
    have hsame := kind_same hd hk hv e
    have ho' : o = k.o := by exact_mod_cast ho
    subst ho'
    rcases h with ⟨a1, a2, a3, a4⟩ | ⟨a1, a2, a3, a4⟩
    · have b1 : t = treeId c nx ny q k.s := by exact_mod_cast a1
      have b3 : t' = treeId c nx ny (next nx ny nz d q) k.s' := by exact_mod_cast a3
      have b2 : F = k.F := by exact_mod_cast a2
      have b4 : F' = k.F' := by exact_mod_cast a4
      subst b1 b2 b3 b4
      exact ⟨L, hL, hsame, fits_matched S hv (next_valid hd hv) ks ks' kF kF' hb (kb.trans hb) e (kinds_fit hd hk hb).1
        fun (p : GridPoint) (k : Fin 3) => ((p k : Int) : ℚ)⟩
    · have b1 : t' = treeId c nx ny q k.s := by exact_mod_cast a1
      have b3 : t = treeId c nx ny (next nx ny nz d q) k.s' := by exact_mod_cast a3
      have b2 : F' = k.F := by exact_mod_cast a2
      have b4 : F = k.F' := by exact_mod_cast a4
      subst b1 b2 b3 b4
      have e' : cubePt (next nx ny nz d q) + -axisOf d = cubePt q + -L := by
        have : cubePt q = cubePt (next nx ny nz d q) + L - axisOf d := by rw [← e]; abel
        rw [this]; abel
      exact ⟨-L, hL.neg, hsame.symm, fits_matched S (next_valid hd hv) hv ks' ks kF' kF hb (kb.symm.trans hb) e'
        (kinds_fit hd hk (kb.symm.trans hb)).2 fun (p : GridPoint) (k : Fin 3) => ((p k : Int) : ℚ)⟩

theorem Period.none {n : Fin 3 → Nat} {L : GridPoint} (h : Period n ![false, false, false] L) : L = 0 := by
  funext k
  obtain ⟨z, e, hz⟩ := h k
  have : z = 0 := hz (by fin_cases k <;> rfl)
  rw [e, this]
  simp

/-- C63: in a mesh without periodic directions, connected faces have the same vertices for every embedding `T` of the grid, in particular for
the coordinates of `C63_vertices_2D` and `C63_vertices_3D_partial`. So C59 holds for these meshes. -/
theorem C63_matched (S : P4ests) {c : Eclass} (hc : c ≠ .pyramid) {nx ny nz : Nat} (hn : Counts c.dim nx ny nz false false false)
    (T : GridPoint → Point) : ∃ js, joins c nx ny nz false false false 0 = some js ∧ Conforming c.dim (classes c nx ny nz) js ∧
      AllMatched S (classes c nx ny nz) js fun t v => T (gridVertex c nx ny t.toNat v) := by
  obtain ⟨js, hj, hC, _, hM⟩ := C63_joins S hc hn
  refine ⟨js, hj, hC, fun t t' F F' o c₁ c₂ b h h1 h2 hb => ?_⟩
  have e1 : c₁ = c := List.eq_of_mem_replicate (List.mem_of_getElem? h1)
  have e2 : c₂ = c := List.eq_of_mem_replicate (List.mem_of_getElem? h2)
  subst e1 e2
  have hpos : 0 ≤ t ∧ 0 ≤ t' := by
    obtain ⟨j, hj, _, h⟩ := h
    obtain ⟨_, _, _, p1, _, p2, _⟩ := hC.faces j hj
    omega
  lift t to Nat using hpos.1
  lift t' to Nat using hpos.2
  obtain ⟨L, hL, _, hm⟩ := hM t F t' F' o b h hb
  have := hL.none
  subst this
  intro i j hi hj hg
  have := hm i j hi hj hg
  refine congrArg T ?_
  funext k
  have := congrFun this k
  simp only [add_zero] at this
  exact_mod_cast this

/-! ### The coordinates of the vertices -/

section Vertices
variable {K : Type} [Field K] [LinearOrder K] [IsStrictOrderedRing K]

theorem regular2 {nx ny : Nat} (hnx : 0 < nx) (hny : 0 < ny) (n : Fin 3 → Nat) (h0 : n 0 = nx) (h1 : n 1 = ny) {b : Nat → Fin 3 → K}
    (hx : b 1 0 > b 0 0 ∧ b 3 0 > b 2 0) (hy : b 2 1 > b 0 1 ∧ b 3 1 > b 1 1) : Regular2 (interp 2 n b) nx ny := by
  have kx : (0 : K) < nx := by exact_mod_cast hnx
  have ky : (0 : K) < ny := by exact_mod_cast hny
  have conv : ∀ (r u v : K), 0 ≤ r → r ≤ 1 → 0 < u → 0 < v → 0 < (1 - r) * u + r * v := by
    intro r u v r0 r1 hu hv
    rcases eq_or_lt_of_le r0 with rfl | h
    · simpa using hu
    · have : 0 ≤ (1 - r) * u := mul_nonneg (by linarith) hu.le
      have : 0 < r * v := mul_pos h hv
      linarith
  constructor
  · intro p p0 p1 hs
    have e : slope (interp 2 n b) 0 p 0 = ((1 - (p 1 : K) / ny) * (b 1 0 - b 0 0) + (p 1 : K) / ny * (b 3 0 - b 2 0)) / nx := by
      simp [slope, interp, Finset.sum_range_succ, Fin.prod_univ_three, Function.update, h0, h1]; field_simp; ring
    have q0 : (0 : K) ≤ (p 1 : K) / ny := div_nonneg (by exact_mod_cast p0) ky.le
    have q1 : (p 1 : K) / ny ≤ 1 := (div_le_one ky).2 (by exact_mod_cast p1)
    have := div_pos (conv _ _ _ q0 q1 (sub_pos.2 hx.1) (sub_pos.2 hx.2)) kx
    rw [← e, hs] at this
    exact lt_irrefl _ this
  · intro p p0 p1 hs
    have e : slope (interp 2 n b) 1 p 1 = ((1 - (p 0 : K) / nx) * (b 2 1 - b 0 1) + (p 0 : K) / nx * (b 3 1 - b 1 1)) / ny := by
      simp [slope, interp, Finset.sum_range_succ, Fin.prod_univ_three, Function.update, h0, h1]; field_simp; ring
    have q0 : (0 : K) ≤ (p 0 : K) / nx := div_nonneg (by exact_mod_cast p0) kx.le
    have q1 : (p 0 : K) / nx ≤ 1 := (div_le_one kx).2 (by exact_mod_cast p1)
    have := div_pos (conv _ _ _ q0 q1 (sub_pos.2 hy.1) (sub_pos.2 hy.2)) ky
    rw [← e, hs] at this
    exact lt_irrefl _ this

/-- C63: the vertices of quads and triangles are the images of the points of the grid under the bilinear map through the corners of the
boundary, for all boundaries that the function accepts. -/
theorem C63_vertices_2D {norm : (Fin 3 → K) → K} (hn : NormLike norm) {c : Eclass} (hc : c = .quad ∨ c = .triangle) {aligned : Bool}
    (ha : aligned = true → c = .quad) {nx ny : Nat} (hnx : 0 < nx) (hny : 0 < ny) (nz : Nat) {b : Nat → Fin 3 → K}
    (hx : b 1 0 > b 0 0 ∧ b 3 0 > b 2 0) (hy : b 2 1 > b 0 1 ∧ b 3 1 > b 1 1) (offset : Nat) :
    setVertices norm c aligned b nx ny nz offset = some ((List.range (nx * ny * treesPerCube c)).map fun t =>
      (t + offset, (storedVertices c aligned).map fun v => interp 2 ![nx, ny, 1] b (gridVertex c nx ny t v))) := by
  have hd : c.dim = 2 := by rcases hc with rfl | rfl <;> rfl
  rw [setVertices, if_neg (by omega), if_pos hd, Nat.mul_comm nx ny]
  refine setVertices2D_ok hn (interp_multiAffine (Or.inl rfl) ![nx, ny, 1] b) (regular2 hnx hny _ rfl rfl hx hy) hc ha hnx hny ?_ offset hx hy
  intro w hw
  refine (interp_corner (Or.inl rfl) ?_ b ?_ hw).symm
  · intro k hk
    fin_cases k
    · exact_mod_cast (by omega : nx ≠ 0)
    · exact_mod_cast (by omega : ny ≠ 0)
    · exact absurd hk (by decide)
  · intro k hk
    fin_cases k
    · rfl
    · rfl
    · exact absurd hk (by decide)

/-- C63: the vertices of hexahedra, tetrahedra and prisms are the images of the points of the grid under the trilinear map through the
corners of the boundary, provided that this map does not shrink an edge to a point, also in the cubes that follow the last ones in each
direction. Missing: other boundaries that meet the assertions of the function, for which `C63_frustum_false` shows that it can fail. -/
theorem C63_vertices_3D_partial {norm : (Fin 3 → K) → K} (hn : NormLike norm) {c : Eclass} (hc : c = .hex ∨ c = .tet ∨ c = .prism) {aligned : Bool}
    (ha : aligned = true → c = .hex) {nx ny nz : Nat} (hnx : 0 < nx) (hny : 0 < ny) (hnz : 0 < nz) {b : Nat → Fin 3 → K} (hU : Upright b)
    (hR : ∀ p : GridPoint, (∀ k, 0 ≤ p k ∧ p k ≤ (![nx, ny, nz] : Fin 3 → Nat) k + 1) → ∀ a : Fin 3,
      interp 3 ![nx, ny, nz] b (Function.update p a (p a + 1)) ≠ interp 3 ![nx, ny, nz] b p)
    {offset : Nat} (ho : c = .hex ∨ offset = 0) :
    setVertices norm c aligned b nx ny nz offset = some ((List.range (nx * ny * nz * treesPerCube c)).map fun t =>
      (t + offset, (storedVertices c aligned).map fun v => interp 3 ![nx, ny, nz] b (gridVertex c nx ny t v))) := by
  have hd : c.dim = 3 := by rcases hc with rfl | rfl | rfl <;> rfl
  rw [setVertices, if_pos hd]
  simp only [hc, assertO_true, Option.bind_eq_bind, Option.bind_some]
  rw [show nx * ny * nz = nz * ny * nx by ring]
  refine setVertices3D_ok hn (interp_multiAffine (Or.inr rfl) ![nx, ny, nz] b) (fun p hp a h => hR p hp a (sub_eq_zero.1 h)) hc ha ho hnx hny hnz ?_ hU
  intro w hw
  refine (interp_corner (Or.inr rfl) ?_ b ?_ hw).symm
  · intro k _
    fin_cases k
    · exact_mod_cast (by omega : nx ≠ 0)
    · exact_mod_cast (by omega : ny ≠ 0)
    · exact_mod_cast (by omega : nz ≠ 0)
  · intro k _
    fin_cases k <;> rfl

/-- The corners of the parallelepiped at `o` with the edges `d`. -/
def parallelepiped (o : Fin 3 → K) (d : Fin 3 → Fin 3 → K) (w : Nat) : Fin 3 → K :=
  fun j => o j + ∑ k : Fin 3, if w / 2 ^ k.val % 2 = 0 then 0 else d k j

/-- C63: for parallelepipeds that the function accepts, in particular for boxes with axis-parallel edges, all vertices are right. -/
theorem C63_vertices_parallelepiped {norm : (Fin 3 → K) → K} (hn : NormLike norm) {c : Eclass} (hc : c = .hex ∨ c = .tet ∨ c = .prism)
    {aligned : Bool} (ha : aligned = true → c = .hex) {nx ny nz : Nat} (hnx : 0 < nx) (hny : 0 < ny) (hnz : 0 < nz) (o : Fin 3 → K)
    (d : Fin 3 → Fin 3 → K) (h0 : 0 < d 0 0) (h1 : 0 < d 1 1) (h2 : 0 < d 2 2) {offset : Nat} (ho : c = .hex ∨ offset = 0) :
    setVertices norm c aligned (parallelepiped o d) nx ny nz offset = some ((List.range (nx * ny * nz * treesPerCube c)).map fun t =>
      (t + offset, (storedVertices c aligned).map fun v j => o j + ∑ k : Fin 3,
        (gridVertex c nx ny t v k : K) / ((![nx, ny, nz] : Fin 3 → Nat) k : K) * d k j)) := by
  have kx : (0 : K) < nx := by exact_mod_cast hnx
  have ky : (0 : K) < ny := by exact_mod_cast hny
  have kz : (0 : K) < nz := by exact_mod_cast hnz
  have hi : ∀ p, interp 3 ![nx, ny, nz] (parallelepiped o d) p = fun j => o j + ∑ k : Fin 3,
      (p k : K) / ((![nx, ny, nz] : Fin 3 → Nat) k : K) * d k j := by
    intro p
    funext j
    simp [interp, parallelepiped, Finset.sum_range_succ, Fin.prod_univ_three, Fin.sum_univ_three]
    ring
  have hU : Upright (parallelepiped o d) := by
    simp [Upright, parallelepiped, Fin.sum_univ_three, h0, h1, h2]
  rw [C63_vertices_3D_partial hn hc ha hnx hny hnz hU ?_ ho]
  · simp only [hi]
  · intro p _ a h
    rw [hi, hi] at h
    have e : ∀ j, d a j / ((![nx, ny, nz] : Fin 3 → Nat) a : K) = 0 := by
      intro j
      have := congrFun h j
      rw [Fin.sum_univ_three, Fin.sum_univ_three] at this
      fin_cases a
      · have u1 : Function.update p 0 (p 0 + 1) 1 = p 1 := rfl
        have u2 : Function.update p 0 (p 0 + 1) 2 = p 2 := rfl
        simp only [Fin.zero_eta, Function.update_self, u1, u2] at this ⊢
        push_cast at this
        show d 0 j / (nx : K) = 0
        linear_combination this
      · have u1 : Function.update p 1 (p 1 + 1) 0 = p 0 := rfl
        have u2 : Function.update p 1 (p 1 + 1) 2 = p 2 := rfl
        simp only [Fin.mk_one, Function.update_self, u1, u2] at this ⊢
        push_cast at this
        show d 1 j / (ny : K) = 0
        linear_combination this
      · have u1 : Function.update p 2 (p 2 + 1) 0 = p 0 := rfl
        have u2 : Function.update p 2 (p 2 + 1) 1 = p 1 := rfl
        simp only [Fin.reduceFinMk, Function.update_self, u1, u2] at this ⊢
        push_cast at this
        show d 2 j / (nz : K) = 0
        linear_combination this
    have := e a
    fin_cases a
    · exact (div_pos h0 kx).ne' this
    · exact (div_pos h1 ky).ne' this
    · exact (div_pos h2 kz).ne' this

/-- C63: a line of length 1 is divided evenly. Missing: other lengths, for which it is wrong, see `C63_lines_false`. -/
theorem C63_vertices_1D_partial {norm : (Fin 3 → K) → K} {nx : Nat} (hnx : 0 < nx) (ny nz : Nat) {b : Nat → Fin 3 → K} (hb : b 1 0 > b 0 0)
    (hl : norm (b 1 - b 0) = 1) (aligned : Bool) (offset : Nat) :
    setVertices norm .line aligned b nx ny nz offset = some ((List.range nx).map fun t =>
      (t + offset, [fun j => b 0 j + (t : K) / nx * (b 1 j - b 0 j), fun j => b 0 j + ((t + 1 : Nat) : K) / nx * (b 1 j - b 0 j)])) := by
  have kx : (nx : K) ≠ 0 := by exact_mod_cast (by omega : nx ≠ 0)
  have hl' : norm (b 1 + (-1 : K) • b 0) = 1 := by
    have : b 1 + (-1 : K) • b 0 = b 1 - b 0 := by funext j; simp; ring
    rw [this, hl]
  have key : ∀ m, (List.range m).foldl (lineStep ((1 / (nx : K)) • (b 1 + (-1 : K) • b 0)) offset)
      ((b 0, b 0 + (1 : K) • ((1 / (nx : K)) • (b 1 + (-1 : K) • b 0))), []) =
      ((fun j => b 0 j + (m : K) / nx * (b 1 j - b 0 j), fun j => b 0 j + ((m + 1 : Nat) : K) / nx * (b 1 j - b 0 j)),
        (List.range m).map fun t =>
        (t + offset, [fun j => b 0 j + (t : K) / nx * (b 1 j - b 0 j), fun j => b 0 j + ((t + 1 : Nat) : K) / nx * (b 1 j - b 0 j)])) := by
    intro m
    induction m with
    | zero => simp; funext j; simp; ring
    | succ m ih =>
      rw [List.range_succ, List.foldl_append, ih, List.map_append]
      simp only [List.foldl_cons, List.foldl_nil, lineStep, List.map_cons, List.map_nil]
      refine Prod.ext (Prod.ext ?_ ?_) rfl
      · funext j; simp
      · funext j; simp; field_simp; ring
  rw [setVertices, if_neg (by decide), if_neg (by decide), if_pos (by decide), setVertices1D]
  simp only [hb, assertO_true, Option.bind_eq_bind, Option.bind_some, hl', key]
  rfl

end Vertices

/-! ### Findings -/

/-- The sum of the absolute values. -/
def sumNorm (v : Fin 3 → ℚ) : ℚ := |v 0| + |v 1| + |v 2|

theorem sumNorm_normLike : NormLike sumNorm where
  zero_iff := fun v => by
    constructor
    · intro h
      have h0 := abs_nonneg (v 0); have h1 := abs_nonneg (v 1); have h2 := abs_nonneg (v 2)
      rw [sumNorm] at h
      funext k
      fin_cases k
      · exact abs_eq_zero.1 (show |v 0| = 0 by linarith)
      · exact abs_eq_zero.1 (show |v 1| = 0 by linarith)
      · exact abs_eq_zero.1 (show |v 2| = 0 by linarith)
    · rintro rfl; simp [sumNorm]
  neg := fun v => by simp [sumNorm]

/-- The Euclidean norm. -/
noncomputable def euclid (v : Fin 3 → ℝ) : ℝ := Real.sqrt (v 0 ^ 2 + v 1 ^ 2 + v 2 ^ 2)

theorem euclid_normLike : NormLike euclid where
  zero_iff := fun v => by
    rw [euclid, Real.sqrt_eq_zero (by positivity)]
    constructor
    · intro h
      have h0 := sq_nonneg (v 0); have h1 := sq_nonneg (v 1); have h2 := sq_nonneg (v 2)
      funext k
      fin_cases k
      · exact (pow_eq_zero_iff two_ne_zero).1 (show v 0 ^ 2 = 0 by linarith)
      · exact (pow_eq_zero_iff two_ne_zero).1 (show v 1 ^ 2 = 0 by linarith)
      · exact (pow_eq_zero_iff two_ne_zero).1 (show v 2 ^ 2 = 0 by linarith)
    · rintro rfl; simp
  neg := fun v => by simp [euclid]

/-- Finding: a line from 0 to 2 that is not divided at all becomes a line from 0 to 4, because the direction is multiplied with the length
instead of being normalised. -/
theorem C63_lines_false : setVertices euclid .line false (fun w => if w = 0 then 0 else ![2, 0, 0]) 1 1 1 0 = some [(0, [0, ![4, 0, 0]])] := by
  have hn : euclid ![2, 0, 0] = 2 := by
    have e : (![2, 0, 0] : Fin 3 → ℝ) 0 ^ 2 + (![2, 0, 0] : Fin 3 → ℝ) 1 ^ 2 + (![2, 0, 0] : Fin 3 → ℝ) 2 ^ 2 = 2 ^ 2 := by simp
    rw [euclid, e, Real.sqrt_sq (by norm_num)]
  rw [setVertices, if_neg (by decide), if_neg (by decide), if_pos (by decide), setVertices1D]
  simp [hn, lineStep, assertO]
  funext k
  fin_cases k <;> simp
  norm_num

/-- Finding: with an offset the vertices of prisms go to other trees, here 3 and 4 instead of 1 and 2. -/
theorem C63_offset_prism_false (v : Nat → Fin 3 → ℚ) :
    (trees3D .prism false 1 1 1 0 0 0 v).map (·.map Prod.fst) = some [3, 4] := rfl

/-- Finding: with an offset one of the connections of tetrahedra along the z-axis is between other trees. -/
theorem C63_offset_tet_false : (joins .tet 1 1 2 false false false 100).any (·.any fun j => j.id1 = 5 ∧ j.id2 = 7) = true := by decide

/-- A frustum that is half as wide at the far end. -/
def frustum (w : Nat) : Fin 3 → ℚ :=
  ![if w % 2 = 0 then 0 else 2, if w / 2 % 2 = 0 then 0 else if w % 2 = 0 then 2 else 1, if w / 4 % 2 = 0 then 0 else 1]

/-- Finding: for this boundary, which meets all assertions, the function divides by zero, even if the box is not divided at all. -/
theorem C63_frustum_false : Upright frustum ∧ setVertices sumNorm .hex false frustum 1 1 1 0 = none := by
  constructor
  · decide +kernel
  · decide +kernel

/-! ### Examples -/

/-- Two times three tetrahedral cubes, periodic along the y-axis. -/
example : Counts Eclass.tet.dim 2 3 1 false true false := ⟨by decide, by decide, by decide⟩

/-- The torus of one quad: its faces 1 and 0 are the same, and so are 3 and 2. -/
example : joins .quad 1 1 1 true true false 0 = some [⟨0, 0, 1, 0, 0⟩, ⟨0, 0, 3, 2, 0⟩] := by decide

example : SameFace .quad 1 1 0 1 0 0 ![1, 0, 0] := by
  intro p
  have e1 : gridFace .quad 1 1 0 1 = [![1, 0, 0], ![1, 1, 0]] := by decide
  have e2 : gridFace .quad 1 1 0 0 = [![0, 0, 0], ![0, 1, 0]] := by decide
  rw [e1, e2]
  have a : (![0, 0, 0] + ![1, 0, 0] : GridPoint) = ![1, 0, 0] := by decide
  have b : (![0, 1, 0] + ![1, 0, 0] : GridPoint) = ![1, 1, 0] := by decide
  simp only [List.mem_cons, List.not_mem_nil, or_false, sub_eq_iff_eq_add, a, b]

/-- Two triangles in a quad that is not a parallelogram, with the Euclidean norm. -/
example : setVertices euclid .triangle false (fun w => if w = 0 then 0 else if w = 1 then ![1, 0, 0] else if w = 2 then ![0, 1, 0] else ![2, 2, 1])
    1 1 1 0 = some ((List.range 2).map fun t => (t + 0, (storedVertices .triangle false).map fun v =>
      interp 2 ![1, 1, 1] (fun w => if w = 0 then 0 else if w = 1 then ![1, 0, 0] else if w = 2 then ![0, 1, 0] else ![2, 2, 1])
        (gridVertex .triangle 1 1 t v))) :=
  C63_vertices_2D euclid_normLike (Or.inr rfl) (by decide) one_pos one_pos 1 (by norm_num) (by norm_num) 0

/-- The first tetrahedron of a brick with edges of length 2, 3 and 4, divided into two cubes. -/
example : (storedVertices .tet false).map (fun v j => (0 : ℚ) + ∑ k : Fin 3, (gridVertex .tet 2 1 6 v k : ℚ) / ((![2, 1, 1] : Fin 3 → Nat) k : ℚ) *
    (![![2, 0, 0], ![0, 3, 0], ![0, 0, 4]] : Fin 3 → Fin 3 → ℚ) k j) = [![1, 0, 0], ![2, 0, 0], ![2, 0, 4], ![2, 3, 4]] := by decide +kernel

end T8.HypercubePad
