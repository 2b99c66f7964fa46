/-
The vertices of the trees of `t8_cmesh_new_hypercube_pad_ext`: the loops of `t8_cmesh_set_vertices_2D` and `t8_cmesh_set_vertices_3D`.
-/
import Verif.Lemmas.HypercubeBox
import Mathlib.Tactic.Linarith
import Mathlib.Tactic.Module
import Mathlib.Tactic.Positivity

namespace T8.HypercubePad
open Neighbor

variable {K : Type} [Field K] [LinearOrder K]

theorem foldlM_range {σ : Type} (body : σ → Nat → Option σ) (P : Nat → σ → Prop) (n : Nat)
    (h : ∀ i < n, ∀ s, P i s → ∃ s', body s i = some s' ∧ P (i + 1) s') (s : σ) (h0 : P 0 s) :
    ∃ s', (List.range n).foldlM body s = some s' ∧ P n s' := by
  induction n with
  | zero => exact ⟨s, rfl, h0⟩
  | succ n ih =>
    obtain ⟨s1, h1, h2⟩ := ih fun i hi => h i (by omega)
    obtain ⟨s2, h3, h4⟩ := h n (by omega) s1 h2
    refine ⟨s2, ?_, h4⟩
    rw [List.range_succ, List.foldlM_append, h1]
    simp [h3]

omit [LinearOrder K] in
theorem interp_multiAffine {dim : Nat} (hd : dim = 2 ∨ dim = 3) (n : Fin 3 → Nat) (b : Nat → Fin 3 → K) :
    MultiAffine (interp dim n b) := by
  have hl : ∀ a p s, interp dim n b (Function.update p a s) = interp dim n b p + ((s - p a : Int) : K) • slope (interp dim n b) a p := by
    intro a p s
    funext j
    rcases hd with rfl | rfl <;> fin_cases a <;>
      simp [slope, interp, Finset.sum_range_succ, Fin.prod_univ_three, Function.update] <;> ring
  refine ⟨hl, fun a p s => ?_⟩
  rw [slope, Function.update_idem, Function.update_self, hl a p (s + 1), hl a p s]
  push_cast
  module

omit [LinearOrder K] in
theorem interp_corner {dim : Nat} (hd : dim = 2 ∨ dim = 3) {n : Fin 3 → Nat} (hn : ∀ k : Fin 3, k.val < dim → (n k : K) ≠ 0)
    (b : Nat → Fin 3 → K) {hi : GridPoint} (hh : ∀ k : Fin 3, k.val < dim → hi k = n k) {w : Nat} (hw : w < 2 ^ dim) :
    interp dim n b (pos 0 hi w) = b w := by
  rcases hd with rfl | rfl
  · have hw : w < 4 := hw
    have h0 := hn 0 (by decide)
    have h1 := hn 1 (by decide)
    have g0 := hh 0 (by decide)
    have g1 := hh 1 (by decide)
    interval_cases w <;> funext j <;>
      simp [interp, pos, Finset.sum_range_succ, Fin.prod_univ_three, g0, g1, h0, h1]
  · have hw : w < 8 := hw
    have h0 := hn 0 (by decide)
    have h1 := hn 1 (by decide)
    have h2 := hn 2 (by decide)
    have g0 := hh 0 (by decide)
    have g1 := hh 1 (by decide)
    have g2 := hh 2 (by decide)
    interval_cases w <;> funext j <;>
      simp [interp, pos, Finset.sum_range_succ, Fin.prod_univ_three, g0, g1, g2, h0, h1, h2]

/-- The vertices that are set for tree `t`. -/
def treeCall (c : Eclass) (aligned : Bool) (nx ny offset : Nat) (T : GridPoint → Fin 3 → K) (t : Nat) : Call K :=
  (t + offset, (if aligned then [0, c.numVertices - 1] else List.range c.numVertices).map fun v => T (gridVertex c nx ny t v))

theorem cubeOf_id {nx ny x y : Nat} (z : Nat) (hx : x < nx) (hy : y < ny) : cubeOf nx ny (z * ny * nx + y * nx + x) = ![(x : Int), y, z] := by
  have h1 : (z * ny * nx + y * nx + x) % nx = x := by
    rw [← Nat.add_mul, Nat.add_comm, Nat.add_mul_mod_self_right, Nat.mod_eq_of_lt hx]
  have h2 : (z * ny * nx + y * nx + x) / nx = z * ny + y := by
    rw [← Nat.add_mul, Nat.add_comm, Nat.add_mul_div_right _ _ (by omega), Nat.div_eq_of_lt hx]; simp
  have h3 : (z * ny * nx + y * nx + x) / nx % ny = y := by
    rw [h2, Nat.add_comm, Nat.add_mul_mod_self_right, Nat.mod_eq_of_lt hy]
  have h4 : (z * ny * nx + y * nx + x) / (nx * ny) = z := by
    rw [← Nat.div_div_eq_div_mul, h2, Nat.add_comm, Nat.add_mul_div_right _ _ (by omega), Nat.div_eq_of_lt hy]; simp
  funext k
  fin_cases k <;> simp [cubeOf, h1, h3, h4]


theorem gridVertex_id {c : Eclass} {nx ny x y : Nat} (z : Nat) (hx : x < nx) (hy : y < ny) {s : Nat} (hs : s < treesPerCube c) (v : Nat) :
    gridVertex c nx ny ((z * ny * nx + y * nx + x) * treesPerCube c + s) v = ![(x : Int), y, z] + cubeCorner (subVertex c s v) := by
  have hm : 0 < treesPerCube c := by omega
  rw [gridVertex, Nat.add_comm (_ * _), Nat.add_mul_div_right _ _ hm, Nat.div_eq_of_lt hs, Nat.zero_add, cubeOf_id z hx hy,
    Nat.add_mul_mod_self_right, Nat.mod_eq_of_lt hs]

omit [Field K] [LinearOrder K] in
/-- The trees inside of a quad. -/
theorem trees2D_ok {c : Eclass} (hc : c = .quad ∨ c = .triangle) {aligned : Bool} (ha : aligned = true → c = .quad)
    {nx ny offset x y : Nat} (hx : x < nx) (hy : y < ny) (T : GridPoint → Fin 3 → K) (v : Nat → Fin 3 → K)
    (hv : ∀ i < 4, v i = T (![(x : Int), y, 0] + cubeCorner i)) :
    trees2D c aligned nx offset y x v = some ((List.range (treesPerCube c)).map fun s =>
      treeCall c aligned nx ny offset T ((y * nx + x) * treesPerCube c + s)) := by
  have key : ∀ s < treesPerCube c, ∀ w, gridVertex c nx ny ((y * nx + x) * treesPerCube c + s) w =
      ![(x : Int), y, 0] + cubeCorner (subVertex c s w) := fun s hs w => by
    have := gridVertex_id (c := c) 0 hx hy hs w
    simpa using this
  rcases hc with rfl | rfl
  · have k0 := key 0 (by decide)
    cases aligned <;>
      simp [trees2D, treeCall, treesPerCube, Eclass.numVertices, List.range_succ, hv, subVertex] at k0 ⊢ <;> simp [k0]
  · cases aligned with
    | true => exact absurd (ha rfl) (by decide)
    | false =>
      have k0 := key 0 (by decide)
      have k1 := key 1 (by decide)
      simp [trees2D, treeCall, treesPerCube, Eclass.numVertices, List.range_succ, hv, subVertex] at k0 k1 ⊢
      simp [k0, k1]
      omega

omit [Field K] [LinearOrder K] in
/-- The trees inside of a hexahedron. -/
theorem trees3D_ok {c : Eclass} (hc : c = .hex ∨ c = .tet ∨ c = .prism) {aligned : Bool} (ha : aligned = true → c = .hex)
    {nx ny offset x y z : Nat} (ho : c = .hex ∨ offset = 0) (hx : x < nx) (hy : y < ny) (T : GridPoint → Fin 3 → K)
    (v : Nat → Fin 3 → K) (hv : ∀ i < 8, v i = T (![(x : Int), y, z] + cubeCorner i)) :
    trees3D c aligned nx ny offset z y x v = some ((List.range (treesPerCube c)).map fun s =>
      treeCall c aligned nx ny offset T ((z * ny * nx + y * nx + x) * treesPerCube c + s)) := by
  have key : ∀ s < treesPerCube c, ∀ w, gridVertex c nx ny ((z * ny * nx + y * nx + x) * treesPerCube c + s) w =
      ![(x : Int), y, z] + cubeCorner (subVertex c s w) := fun s hs w => gridVertex_id (c := c) z hx hy hs w
  rcases hc with rfl | rfl | rfl
  · have k0 := key 0 (by decide)
    cases aligned <;>
      simp [trees3D, treeCall, treesPerCube, Eclass.numVertices, List.range_succ, hv, subVertex] at k0 ⊢ <;> simp [k0]
  · obtain rfl : offset = 0 := ho.resolve_left (by decide)
    cases aligned with
    | true => exact absurd (ha rfl) (by decide)
    | false =>
      have k0 := key 0 (by decide)
      have k1 := key 1 (by decide)
      have k2 := key 2 (by decide)
      have k3 := key 3 (by decide)
      have k4 := key 4 (by decide)
      have k5 := key 5 (by decide)
      simp [trees3D, treeCall, treesPerCube, Eclass.numVertices, List.range_succ, hv, subVertex] at k0 k1 k2 k3 k4 k5 ⊢
      simp [k0, k1, k2, k3, k4, k5]
  · obtain rfl : offset = 0 := ho.resolve_left (by decide)
    cases aligned with
    | true => exact absurd (ha rfl) (by decide)
    | false =>
      have k0 := key 0 (by decide)
      have k1 := key 1 (by decide)
      simp [trees3D, treeCall, treesPerCube, Eclass.numVertices, List.range_succ, hv, subVertex] at k0 k1 ⊢
      simp [k0, k1]

omit [Field K] [LinearOrder K] in
theorem calls_succ (c : Eclass) (aligned : Bool) (nx ny offset : Nat) (T : GridPoint → Fin 3 → K) (q : Nat) :
    (List.range (q * treesPerCube c)).map (treeCall c aligned nx ny offset T) ++ ((List.range (treesPerCube c)).map fun s =>
      treeCall c aligned nx ny offset T (q * treesPerCube c + s)) =
    (List.range ((q + 1) * treesPerCube c)).map (treeCall c aligned nx ny offset T) := by
  rw [Nat.add_mul, Nat.one_mul, List.range_add, List.map_append, List.map_map]
  rfl

/-! ### Two dimensions -/

section Two
variable [IsStrictOrderedRing K] {norm : (Fin 3 → K) → K} {T : GridPoint → Fin 3 → K} {nx ny : Nat}

/-- The edges of the grid are not degenerate. -/
structure Regular2 (T : GridPoint → Fin 3 → K) (nx ny : Nat) : Prop where
  x : ∀ p : GridPoint, 0 ≤ p 1 → p 1 ≤ ny → slope T 0 p ≠ 0
  y : ∀ p : GridPoint, 0 ≤ p 0 → p 0 ≤ nx → slope T 1 p ≠ 0

theorem Inv.mono {dim : Nat} {lo hi : GridPoint} {Good Good' : Nat → Prop} {B : Box K} (hI : Inv dim T lo hi Good B)
    (h : ∀ e < numEdges dim, Good' e → Good e) : Inv dim T lo hi Good' B :=
  ⟨hI.box, hI.axes, fun e he hg => hI.dir e he (h e he hg)⟩

omit [LinearOrder K] [IsStrictOrderedRing K] in
theorem slope_add (p : GridPoint) (a : Fin 3) : slope T a p + T p = T (Function.update p a (p a + 1)) := by
  rw [slope]; abel

theorem cell2D_ok (hn : NormLike norm) (hT : MultiAffine T) (hR : Regular2 T nx ny) {c : Eclass} (hc : c = .quad ∨ c = .triangle)
    {aligned : Bool} (ha : aligned = true → c = .quad) {offset x y : Nat} (hx : x < nx) (hy : y < ny) {B : Box K}
    (hI : Inv 2 T ![(x : Int), y, 0] ![(nx : Int), ny, 0] (fun _ => True) B) (out : List (Call K)) :
    ∃ B', cell2D norm c aligned nx offset y (B, out) x = some (B', out ++ (List.range (treesPerCube c)).map fun s =>
        treeCall c aligned nx ny offset T ((y * nx + x) * treesPerCube c + s)) ∧
      Inv 2 T ![((x + 1 : Nat) : Int), y, 0] ![(nx : Int), ny, 0] (fun _ => True) B' := by
  obtain ⟨B', hB, hI'⟩ := move_ok hn hT (dim := 2) (f := 0) (Or.inl rfl) (by decide) (a := 0) rfl (k := 1) hI (fun _ _ _ => trivial)
    (fun b hb hba => by
      have : b = 1 := by omega
      subst this
      simp; omega)
    (fun b w hb hba hw hwf => by
      have : b = 1 := by omega
      subst this
      refine hR.y _ ?_ ?_ <;> simp [pos] <;> simp at hwf <;> simp [hwf] <;> omega)
  have e1 : newLo 0 0 1 ![(x : Int), y, 0] = ![((x + 1 : Nat) : Int), y, 0] := by
    funext k; fin_cases k <;> simp [newLo]
  have e2 : newHi 0 0 1 ![(nx : Int), ny, 0] = ![(nx : Int), ny, 0] := by simp [newHi]
  rw [e1, e2] at hI'
  have hI' : Inv 2 T ![((x + 1 : Nat) : Int), y, 0] ![(nx : Int), ny, 0] (fun _ => True) B' := hI'.mono fun _ _ _ => Or.inl trivial
  refine ⟨B', ?_, hI'⟩
  have p0 : ∀ lo hi : GridPoint, pos lo hi 0 = lo := fun lo hi => by funext k; simp [pos]
  have a1 : B.box 0 = T ![(x : Int), y, 0] := by rw [hI.box 0 (by decide), p0]
  have a2 : B.dir 0 + (1 : K) • B.box 0 = T ![(x : Int), y + 1, 0] := by
    rw [hI.dir 0 (by decide) trivial, one_smul, a1]
    show slope T 1 (pos _ _ 0) + _ = _
    rw [p0, slope_add]
    congr 1; funext k; fin_cases k <;> simp
  have a3 : B'.box 0 = T ![((x + 1 : Nat) : Int), y, 0] := by rw [hI'.box 0 (by decide), p0]
  have a4 : B'.dir 0 + (1 : K) • B'.box 0 = T ![((x + 1 : Nat) : Int), y + 1, 0] := by
    rw [hI'.dir 0 (by decide) trivial, one_smul, a3]
    show slope T 1 (pos _ _ 0) + _ = _
    rw [p0, slope_add]
    congr 1; funext k; fin_cases k <;> simp
  rw [cell2D]
  simp only [hB, Option.bind_eq_bind, Option.bind_some]
  rw [trees2D_ok hc ha hx hy T _ (fun i hi => ?_)]
  · rfl
  · interval_cases i
    · refine a1.trans (congrArg T ?_); funext k; fin_cases k <;> simp [cubeCorner]
    · refine (one_smul K (B'.box 0)).trans (a3.trans (congrArg T ?_)); funext k; fin_cases k <;> simp [cubeCorner]
    · refine a2.trans (congrArg T ?_); funext k; fin_cases k <;> simp [cubeCorner]
    · refine a4.trans (congrArg T ?_); funext k; fin_cases k <;> simp [cubeCorner]

theorem row2D_ok (hn : NormLike norm) (hT : MultiAffine T) (hR : Regular2 T nx ny) {c : Eclass} (hc : c = .quad ∨ c = .triangle)
    {aligned : Bool} (ha : aligned = true → c = .quad) (hnx : 0 < nx) {boundary : Nat → Fin 3 → K}
    (hb : ∀ w < 4, boundary w = T (pos 0 ![(nx : Int), ny, 0] w)) {offset y : Nat} (hy : y < ny) {B : Box K}
    (hI : Inv 2 T ![0, (y : Int), 0] ![(nx : Int), ny, 0] (fun _ => True) B) {out : List (Call K)}
    (ho : out = (List.range (y * nx * treesPerCube c)).map (treeCall c aligned nx ny offset T)) :
    ∃ B' out', row2D norm c aligned boundary nx ny offset (B, out) y = some (B', out') ∧
      Inv 2 T ![0, ((y + 1 : Nat) : Int), 0] ![(nx : Int), ny, 0] (fun _ => True) B' ∧
      out' = (List.range ((y + 1) * nx * treesPerCube c)).map (treeCall c aligned nx ny offset T) := by
  obtain ⟨⟨B1, out1⟩, h1, hI1, ho1⟩ := foldlM_range (cell2D norm c aligned nx offset y)
    (fun x s => Inv 2 T ![(x : Int), y, 0] ![(nx : Int), ny, 0] (fun _ => True) s.1 ∧
      s.2 = (List.range ((y * nx + x) * treesPerCube c)).map (treeCall c aligned nx ny offset T)) nx
    (fun x hx s hs => by
      obtain ⟨B', h, hI'⟩ := cell2D_ok hn hT hR hc ha (offset := offset) hx hy hs.1 s.2
      refine ⟨_, h, hI', ?_⟩
      simp only [hs.2]
      exact calls_succ c aligned nx ny offset T (y * nx + x))
    (B, out) ⟨by simpa using hI, by simpa using ho⟩
  have x0 : B1.axes 0 = 0 := by simpa using hI1.axes 0 (by decide)
  have x1 : B1.axes 1 = (ny : Int) - y := by simpa using hI1.axes 1 (by decide)
  have hI2 : Inv 2 T 0 ![(nx : Int), ny, 0] (fun e => e = 1 ∨ e = 3)
      { B1 with box := boundary, axes := fun i => if i = 0 then (nx : Int) else ny } := by
    refine ⟨hb, fun a ha => ?_, fun e he hg => ?_⟩
    · fin_cases a <;> simp at ha ⊢
    · rw [show ({ B1 with box := boundary, axes := fun i => if i = 0 then (nx : Int) else ny } : Box K).dir = B1.dir from rfl,
        hI1.dir e he trivial]
      refine slope_congr hT fun k hk => ?_
      rcases hg with rfl | rfl <;> fin_cases k <;> first | rfl | exact absurd rfl hk
  obtain ⟨B2, h2, hI2⟩ := updateFace_ok hn hT (dim := 2) (f := 0) (Or.inl rfl) (by decide) (a := 0) rfl hI2
    (fun b hb hba => by
      have : b = 1 := by omega
      subst this
      simp; omega)
    (fun b w hb hba hw hwf => by
      have : b = 1 := by omega
      subst this
      refine hR.y _ ?_ ?_ <;> simp [pos] <;> simp at hwf <;> simp [hwf])
  obtain ⟨B3, h3, hI3⟩ := move_ok hn hT (dim := 2) (f := 2) (Or.inl rfl) (by decide) (a := 1) rfl (k := (y : Int) + 1) hI2
    (fun w hw hwf => by
      have hw : w < 4 := hw
      interval_cases w
      · exact Or.inr (by decide)
      · exact Or.inl (Or.inl rfl)
      · exact absurd hwf (by decide)
      · exact absurd hwf (by decide))
    (fun b hb hba => by
      have : b = 0 := by omega
      subst this
      simp; omega)
    (fun b w hb hba hw hwf => by
      have : b = 0 := by omega
      subst this
      refine hR.x _ ?_ ?_ <;> simp [pos] <;> simp at hwf <;> simp [hwf] <;> omega)
  have e1 : newLo 2 1 ((y : Int) + 1) 0 = ![0, ((y + 1 : Nat) : Int), 0] := by
    funext k; fin_cases k <;> simp [newLo]
  have e2 : newHi 2 1 ((y : Int) + 1) ![(nx : Int), ny, 0] = ![(nx : Int), ny, 0] := by simp [newHi]
  rw [e1, e2] at hI3
  refine ⟨B3, out1, ?_, hI3.mono fun e he _ => ?_, ?_⟩
  · rw [row2D, h1]
    simp only [Option.bind_eq_bind, Option.bind_some, x0, x1, assertO_true, h2, h3]
    rfl
  · have he : e < 4 := he
    interval_cases e
    · exact Or.inl (Or.inr (by decide))
    · exact Or.inl (Or.inl (Or.inl rfl))
    · exact Or.inr (by decide)
    · exact Or.inl (Or.inl (Or.inr rfl))
  · simpa [Nat.add_mul] using ho1

theorem setVertices2D_ok (hn : NormLike norm) (hT : MultiAffine T) (hR : Regular2 T nx ny) {c : Eclass} (hc : c = .quad ∨ c = .triangle)
    {aligned : Bool} (ha : aligned = true → c = .quad) (hnx : 0 < nx) (hny : 0 < ny) {boundary : Nat → Fin 3 → K}
    (hb : ∀ w < 4, boundary w = T (pos 0 ![(nx : Int), ny, 0] w)) (offset : Nat)
    (hx : boundary 1 0 > boundary 0 0 ∧ boundary 3 0 > boundary 2 0) (hy : boundary 2 1 > boundary 0 1 ∧ boundary 3 1 > boundary 1 1) :
    setVertices2D norm c aligned boundary nx ny offset =
      some ((List.range (ny * nx * treesPerCube c)).map (treeCall c aligned nx ny offset T)) := by
  have hI : Inv 2 T 0 ![(nx : Int), ny, 0] (fun _ => False) (⟨boundary, fun _ => 0, fun i => if i = 0 then (nx : Int) else ny⟩ : Box K) := by
    refine ⟨hb, fun a ha => ?_, fun e he hg => hg.elim⟩
    fin_cases a <;> simp at ha ⊢
  have up : ∀ (f : Nat) (hf : f < 4) (Good : Nat → Prop) (B : Box K), Inv 2 T 0 ![(nx : Int), ny, 0] Good B →
      ∃ B', updateFace norm 2 f B = some B' ∧ Inv 2 T 0 ![(nx : Int), ny, 0] (fun e => Good e ∨ e ∈ (faceEdges .quad).getD f []) B' := by
    intro f hf Good B hI
    refine updateFace_ok hn hT (dim := 2) (f := f) (Or.inl rfl) (by omega) (a := ⟨f / 2, by omega⟩) rfl hI ?_ ?_
    · intro b hb hba
      have : b = 0 ∨ b = 1 := by omega
      rcases this with rfl | rfl <;> simp <;> omega
    · intro b w hb hba hw hwf
      have : b = 0 ∨ b = 1 := by omega
      rcases this with rfl | rfl
      · refine hR.x _ ?_ ?_ <;> simp only [pos] <;> split <;> simp
      · refine hR.y _ ?_ ?_ <;> simp only [pos] <;> split <;> simp
  obtain ⟨B0, h0, hI⟩ := up 0 (by decide) _ _ hI
  obtain ⟨B1, h1, hI⟩ := up 1 (by decide) _ _ hI
  obtain ⟨B2, h2, hI⟩ := up 2 (by decide) _ _ hI
  obtain ⟨B3, h3, hI⟩ := up 3 (by decide) _ _ hI
  have hI : Inv 2 T ![0, ((0 : Nat) : Int), 0] ![(nx : Int), ny, 0] (fun _ => True) B3 := by
    have e : (![0, ((0 : Nat) : Int), 0] : GridPoint) = 0 := by funext k; fin_cases k <;> rfl
    rw [e]
    refine hI.mono fun e he _ => ?_
    have he : e < 4 := he
    interval_cases e <;> simp [faceEdges]
  obtain ⟨⟨B4, out⟩, h4, hI4, ho⟩ := foldlM_range (row2D norm c aligned boundary nx ny offset)
    (fun y s => Inv 2 T ![0, (y : Int), 0] ![(nx : Int), ny, 0] (fun _ => True) s.1 ∧
      s.2 = (List.range (y * nx * treesPerCube c)).map (treeCall c aligned nx ny offset T)) ny
    (fun y hy s hs => by
      obtain ⟨B', out', h, hI', ho'⟩ := row2D_ok hn hT hR hc ha hnx hb (offset := offset) hy hs.1 hs.2
      exact ⟨_, h, hI', ho'⟩)
    (B3, []) ⟨hI, by simp⟩
  rw [setVertices2D]
  simp only [hc, hx, hy, assertO_true, and_self, Option.bind_eq_bind, Option.bind_some, h0, h1, h2, h3, h4]
  exact congrArg some ho

end Two

end T8.HypercubePad
