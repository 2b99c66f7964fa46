/-
The face connections of `t8_cmesh_new_hypercube_pad_ext` are those of the grid.
-/
import Verif.Lemmas.HypercubeFaces

namespace T8.HypercubePad
open Neighbor Geometry

variable {c : Eclass} {nx ny nz : Nat} {px py pz : Bool}

/-- The cube exists. -/
def ValidCube (nx ny nz : Nat) (q : Cube3) : Prop := q.1 < nz ∧ q.2.1 < ny ∧ q.2.2 < nx

theorem mem_cubes {d : Nat} {q : Cube3} : q ∈ cubes nx ny nz px py pz d ↔ q.1 < nz - (if d = 3 ∧ pz = false then 1 else 0) ∧
    q.2.1 < ny - (if d = 2 ∧ py = false then 1 else 0) ∧ q.2.2 < nx - (if d = 1 ∧ px = false then 1 else 0) := by
  obtain ⟨z, y, x⟩ := q
  simp [cubes, List.pair_mem_product]

theorem cubes_valid {d : Nat} {q : Cube3} (h : q ∈ cubes nx ny nz px py pz d) : ValidCube nx ny nz q := by
  obtain ⟨a, b, e⟩ := mem_cubes.1 h
  exact ⟨by omega, by omega, by omega⟩

theorem cubes_nodup (d : Nat) : (cubes nx ny nz px py pz d).Nodup :=
  List.nodup_range.product (List.nodup_range.product List.nodup_range)

theorem next_valid {d : Nat} (hd : d < 4) {q : Cube3} (h : ValidCube nx ny nz q) : ValidCube nx ny nz (next nx ny nz d q) := by
  obtain ⟨z, y, x⟩ := q
  obtain ⟨a, b, e⟩ := h
  simp only at a b e
  interval_cases d <;> simp only [next, ValidCube] <;> refine ⟨?_, ?_, ?_⟩ <;> first | assumption | (split <;> omega)

theorem next_inj {d : Nat} (hd : d < 4) {q q' : Cube3} (h : ValidCube nx ny nz q) (h' : ValidCube nx ny nz q')
    (e : next nx ny nz d q = next nx ny nz d q') : q = q' := by
  obtain ⟨z, y, x⟩ := q
  obtain ⟨z', y', x'⟩ := q'
  obtain ⟨a1, a2, a3⟩ := h
  obtain ⟨b1, b2, b3⟩ := h'
  simp only at a1 a2 a3 b1 b2 b3
  interval_cases d <;> simp only [next, Prod.mk.injEq] at e ⊢ <;> obtain ⟨e1, e2, e3⟩ := e <;> refine ⟨?_, ?_, ?_⟩ <;>
    first | assumption | (split at e1 <;> split at e1 <;> omega) | (split at e2 <;> split at e2 <;> omega) | (split at e3 <;> split at e3 <;> omega)

theorem cubeId_inj {q q' : Cube3} (h : ValidCube nx ny nz q) (h' : ValidCube nx ny nz q') (e : cubeId nx ny q = cubeId nx ny q') : q = q' := by
  obtain ⟨z, y, x⟩ := q
  obtain ⟨z', y', x'⟩ := q'
  obtain ⟨_, a2, a3⟩ := h
  obtain ⟨_, b2, b3⟩ := h'
  simp only [cubeId] at *
  have k := congrArg (cubeOf nx ny) e
  rw [cubeOf_id z a3 a2, cubeOf_id z' b3 b2] at k
  have k0 : (x : Int) = x' := congrFun k 0
  have k1 : (y : Int) = y' := congrFun k 1
  have k2 : (z : Int) = z' := congrFun k 2
  simp only [Prod.mk.injEq]
  omega

theorem treeId_inj {q q' : Cube3} (h : ValidCube nx ny nz q) (h' : ValidCube nx ny nz q') {s s' : Nat} (hs : s < treesPerCube c)
    (hs' : s' < treesPerCube c) (e : treeId c nx ny q s = treeId c nx ny q' s') : q = q' ∧ s = s' := by
  have hm : 0 < treesPerCube c := by omega
  have e1 := congrArg (· / treesPerCube c) e
  have e2 := congrArg (· % treesPerCube c) e
  simp only [treeId, Nat.mul_add_mod_self_right, Nat.mod_eq_of_lt hs, Nat.mod_eq_of_lt hs'] at e2
  simp only [treeId, Nat.add_comm (_ * _), Nat.add_mul_div_right _ _ hm, Nat.div_eq_of_lt hs, Nat.div_eq_of_lt hs', Nat.zero_add] at e1
  exact ⟨cubeId_inj h h' e1, e2⟩

theorem cubeId_lt {q : Cube3} (h : ValidCube nx ny nz q) : cubeId nx ny q < nx * ny * nz := by
  obtain ⟨z, y, x⟩ := q
  obtain ⟨a1, a2, a3⟩ := h
  simp only [cubeId] at *
  have h1 : y * nx + x < ny * nx := by
    calc y * nx + x < y * nx + nx := by omega
      _ = (y + 1) * nx := by ring
      _ ≤ ny * nx := Nat.mul_le_mul_right _ a2
  calc z * ny * nx + y * nx + x < z * ny * nx + ny * nx := by omega
    _ = (z + 1) * (ny * nx) := by ring
    _ ≤ nz * (ny * nx) := Nat.mul_le_mul_right _ a1
    _ = nx * ny * nz := by ring

theorem treeId_lt {q : Cube3} (h : ValidCube nx ny nz q) {s : Nat} (hs : s < treesPerCube c) :
    treeId c nx ny q s < nx * ny * nz * treesPerCube c := by
  have := cubeId_lt h
  calc treeId c nx ny q s < cubeId nx ny q * treesPerCube c + treesPerCube c := by rw [treeId]; omega
    _ = (cubeId nx ny q + 1) * treesPerCube c := by ring
    _ ≤ _ := Nat.mul_le_mul_right _ this

theorem tree_exists (hc : 0 < treesPerCube c) {t : Nat} (ht : t < nx * ny * nz * treesPerCube c) :
    ∃ q s, ValidCube nx ny nz q ∧ s < treesPerCube c ∧ t = treeId c nx ny q s := by
  have hq : t / treesPerCube c < nx * ny * nz := (Nat.div_lt_iff_lt_mul hc).2 ht
  have hp : 0 < nx * ny * nz := Nat.lt_of_le_of_lt (Nat.zero_le _) hq
  have hx : 0 < nx := Nat.pos_of_ne_zero (by rintro rfl; simp at hp)
  have hy : 0 < ny := Nat.pos_of_ne_zero (by rintro rfl; simp at hp)
  refine ⟨(t / treesPerCube c / nx / ny, t / treesPerCube c / nx % ny, t / treesPerCube c % nx), t % treesPerCube c,
    ⟨?_, Nat.mod_lt _ hy, Nat.mod_lt _ hx⟩, Nat.mod_lt _ hc, ?_⟩
  · simp only
    rw [Nat.div_div_eq_div_mul, Nat.div_lt_iff_lt_mul (by positivity)]
    calc _ < _ := hq
      _ = _ := by ring
  · simp only [treeId, cubeId]
    have e1 : t / treesPerCube c / nx / ny * ny * nx + t / treesPerCube c / nx % ny * nx = t / treesPerCube c / nx * nx := by
      rw [← Nat.add_mul, Nat.div_add_mod']
    rw [e1, Nat.div_add_mod', Nat.div_add_mod']

/-! ### Neighbouring cubes -/

theorem wrap_same {n x x' : Nat} (hx : x < n) (hx' : x' < n) {z : Int} (h : (x : Int) = x' + z * n) : x' = x ∧ z = 0 := by
  have hz : z = 0 := by
    by_contra h0
    rcases lt_or_gt_of_ne h0 with h1 | h1
    · have : z * n ≤ -1 * n := Int.mul_le_mul_of_nonneg_right (by omega) (by omega)
      omega
    · have : 1 * (n : Int) ≤ z * n := Int.mul_le_mul_of_nonneg_right (by omega) (by omega)
      omega
  subst hz
  omega

theorem wrap_next {n x x' : Nat} (hx : x < n) (hx' : x' < n) {z : Int} (h : (x : Int) + 1 = x' + z * n) :
    (x' = if x = n - 1 then 0 else x + 1) ∧ (z = 0 → x < n - 1) := by
  by_cases hl : x = n - 1
  · have h' : ((0 : Nat) : Int) = x' + (z - 1) * n := by
      have : (x : Int) + 1 = n := by omega
      push_cast
      linarith
    obtain ⟨a, b⟩ := wrap_same (by omega) hx' h'
    rw [if_pos hl]
    exact ⟨a, fun h0 => by omega⟩
  · have h' : ((x + 1 : Nat) : Int) = x' + z * n := by push_cast; exact h
    obtain ⟨a, b⟩ := wrap_same (by omega) hx' h'
    rw [if_neg hl]
    exact ⟨a, fun _ => by omega⟩

theorem shift {d : Nat} (hd : d < 4) {q : Cube3} (h : q ∈ cubes nx ny nz px py pz d) :
    ∃ L, Period ![nx, ny, nz] ![px, py, pz] L ∧ cubePt q + axisOf d = cubePt (next nx ny nz d q) + L := by
  obtain ⟨z, y, x⟩ := q
  obtain ⟨a1, a2, a3⟩ := mem_cubes.1 h
  simp only at a1 a2 a3
  have key : ∀ (n w : Nat) (p : Bool), w < n - (if p = false then 1 else 0) →
      ∃ m : Int, (w : Int) + 1 = ((if w = n - 1 then 0 else w + 1 : Nat) : Int) + m * n ∧ (p = false → m = 0) := by
    intro n w p hw
    by_cases hl : w = n - 1
    · refine ⟨1, by rw [if_pos hl]; have : w < n := by omega
                    push_cast; omega, fun hp => ?_⟩
      rw [if_pos hp] at hw; omega
    · exact ⟨0, by rw [if_neg hl]; push_cast; ring, fun _ => rfl⟩
  interval_cases d
  · exact ⟨0, fun k => ⟨0, by simp, fun _ => rfl⟩, by funext k; fin_cases k <;> simp [cubePt, axisOf, next]⟩
  · obtain ⟨m, e, hm⟩ := key nx x px (by simpa using a3)
    refine ⟨![m * nx, 0, 0], fun k => ?_, ?_⟩
    · fin_cases k
      · exact ⟨m, rfl, hm⟩
      · exact ⟨0, by simp, fun _ => rfl⟩
      · exact ⟨0, by simp, fun _ => rfl⟩
    · funext k
      fin_cases k
      · exact e
      · show (y : Int) + 0 = y + 0; rfl
      · show (z : Int) + 0 = z + 0; rfl
  · obtain ⟨m, e, hm⟩ := key ny y py (by simpa using a2)
    refine ⟨![0, m * ny, 0], fun k => ?_, ?_⟩
    · fin_cases k
      · exact ⟨0, by simp, fun _ => rfl⟩
      · exact ⟨m, rfl, hm⟩
      · exact ⟨0, by simp, fun _ => rfl⟩
    · funext k
      fin_cases k
      · show (x : Int) + 0 = x + 0; rfl
      · exact e
      · show (z : Int) + 0 = z + 0; rfl
  · obtain ⟨m, e, hm⟩ := key nz z pz (by simpa using a1)
    refine ⟨![0, 0, m * nz], fun k => ?_, ?_⟩
    · fin_cases k
      · exact ⟨0, by simp, fun _ => rfl⟩
      · exact ⟨0, by simp, fun _ => rfl⟩
      · exact ⟨m, rfl, hm⟩
    · funext k
      fin_cases k
      · show (x : Int) + 0 = x + 0; rfl
      · show (y : Int) + 0 = y + 0; rfl
      · exact e

theorem shift_conv {d : Nat} (hd : d < 4) {q q' : Cube3} (hq : ValidCube nx ny nz q) (hq' : ValidCube nx ny nz q') {L : GridPoint}
    (hL : Period ![nx, ny, nz] ![px, py, pz] L) (e : cubePt q + axisOf d = cubePt q' + L) :
    q ∈ cubes nx ny nz px py pz d ∧ q' = next nx ny nz d q := by
  obtain ⟨z, y, x⟩ := q
  obtain ⟨z', y', x'⟩ := q'
  obtain ⟨a1, a2, a3⟩ := hq
  obtain ⟨b1, b2, b3⟩ := hq'
  simp only at a1 a2 a3 b1 b2 b3
  obtain ⟨m0, l0, p0⟩ := hL 0
  obtain ⟨m1, l1, p1⟩ := hL 1
  obtain ⟨m2, l2, p2⟩ := hL 2
  have e0 : (x : Int) + axisOf d 0 = x' + m0 * nx := by
    have := congrFun e 0; rw [Pi.add_apply, Pi.add_apply, l0] at this; exact this
  have e1 : (y : Int) + axisOf d 1 = y' + m1 * ny := by
    have := congrFun e 1; rw [Pi.add_apply, Pi.add_apply, l1] at this; exact this
  have e2 : (z : Int) + axisOf d 2 = z' + m2 * nz := by
    have := congrFun e 2; rw [Pi.add_apply, Pi.add_apply, l2] at this; exact this
  replace p0 : px = false → m0 = 0 := p0
  replace p1 : py = false → m1 = 0 := p1
  replace p2 : pz = false → m2 = 0 := p2
  rw [mem_cubes]
  simp only
  interval_cases d
  · replace e0 : (x : Int) = x' + m0 * nx := by rw [← e0]; simp [axisOf]
    replace e1 : (y : Int) = y' + m1 * ny := by rw [← e1]; simp [axisOf]
    replace e2 : (z : Int) = z' + m2 * nz := by rw [← e2]; simp [axisOf]
    obtain ⟨rfl, _⟩ := wrap_same a3 b3 e0
    obtain ⟨rfl, _⟩ := wrap_same a2 b2 e1
    obtain ⟨rfl, _⟩ := wrap_same a1 b1 e2
    exact ⟨⟨by simpa using a1, by simpa using a2, by simpa using a3⟩, rfl⟩
  · replace e0 : (x : Int) + 1 = x' + m0 * nx := by rw [← e0]; simp [axisOf]
    replace e1 : (y : Int) = y' + m1 * ny := by rw [← e1]; simp [axisOf]
    replace e2 : (z : Int) = z' + m2 * nz := by rw [← e2]; simp [axisOf]
    obtain ⟨rfl, h0⟩ := wrap_next a3 b3 e0
    obtain ⟨rfl, _⟩ := wrap_same a2 b2 e1
    obtain ⟨rfl, _⟩ := wrap_same a1 b1 e2
    refine ⟨⟨by simpa using a1, by simpa using a2, ?_⟩, rfl⟩
    split
    · exact h0 (p0 (by tauto))
    · omega
  · replace e0 : (x : Int) = x' + m0 * nx := by rw [← e0]; simp [axisOf]
    replace e1 : (y : Int) + 1 = y' + m1 * ny := by rw [← e1]; simp [axisOf]
    replace e2 : (z : Int) = z' + m2 * nz := by rw [← e2]; simp [axisOf]
    obtain ⟨rfl, _⟩ := wrap_same a3 b3 e0
    obtain ⟨rfl, h0⟩ := wrap_next a2 b2 e1
    obtain ⟨rfl, _⟩ := wrap_same a1 b1 e2
    refine ⟨⟨by simpa using a1, ?_, by simpa using a3⟩, rfl⟩
    split
    · exact h0 (p1 (by tauto))
    · omega
  · replace e0 : (x : Int) = x' + m0 * nx := by rw [← e0]; simp [axisOf]
    replace e1 : (y : Int) = y' + m1 * ny := by rw [← e1]; simp [axisOf]
    replace e2 : (z : Int) + 1 = z' + m2 * nz := by rw [← e2]; simp [axisOf]
    obtain ⟨rfl, _⟩ := wrap_same a3 b3 e0
    obtain ⟨rfl, _⟩ := wrap_same a2 b2 e1
    obtain ⟨rfl, h0⟩ := wrap_next a1 b1 e2
    refine ⟨⟨?_, by simpa using a2, by simpa using a3⟩, rfl⟩
    split
    · exact h0 (p2 (by tauto))
    · omega

theorem Period.neg {n : Fin 3 → Nat} {per : Fin 3 → Bool} {L : GridPoint} (h : Period n per L) : Period n per (-L) := fun k => by
  obtain ⟨z, e, hz⟩ := h k
  exact ⟨-z, by rw [Pi.neg_apply, e]; ring, fun hp => by rw [hz hp]; rfl⟩

theorem gridVertex_tree {q : Cube3} (h : ValidCube nx ny nz q) {s : Nat} (hs : s < treesPerCube c) (v : Nat) :
    gridVertex c nx ny (treeId c nx ny q s) v = cubePt q + cubeCorner (subVertex c s v) := gridVertex_id q.1 h.2.2 h.2.1 hs v

theorem mem_gridFace {q : Cube3} (h : ValidCube nx ny nz q) {s : Nat} (hs : s < treesPerCube c) {F : Nat} {p : GridPoint} :
    p ∈ gridFace c nx ny (treeId c nx ny q s) F ↔ p - cubePt q ∈ lface c s F := by
  simp only [gridFace, lface, List.mem_map]
  refine exists_congr fun v => and_congr_right fun _ => ?_
  rw [gridVertex_tree h hs]
  constructor
  · rintro rfl; exact (add_sub_cancel_left _ _).symm
  · intro e; rw [e]; exact add_sub_cancel _ _

/-! ### The list of connections -/

/-- All connections: direction, cube, kind. -/
def entries (c : Eclass) (nx ny nz : Nat) (px py pz : Bool) : List (Nat × Cube3 × Kind) :=
  (List.range 4).flatMap fun d => (cubes nx ny nz px py pz d ×ˢ kindsOf c d).map fun i => (d, i)

def mk' (c : Eclass) (nx ny nz : Nat) (e : Nat × Cube3 × Kind) : Stash.JoinFace := mk c nx ny nz 0 e.1 e.2

theorem joins_entries (hc : c ≠ .pyramid) (hx : 0 < nx) (hy : 0 < ny) (hz : 0 < nz)
    (h1 : c.dim < 1 → nx = 1 ∧ px = false) (h2 : c.dim < 2 → ny = 1 ∧ py = false) (h3 : c.dim < 3 → nz = 1 ∧ pz = false) :
    joins c nx ny nz px py pz 0 = some ((entries c nx ny nz px py pz).map (mk' c nx ny nz)) := by
  rw [joins_eq hc hx hy hz h1 h2 h3 (Or.inr rfl), entries, List.map_flatMap]
  congr 1
  refine List.flatMap_congr fun d _ => ?_
  rw [List.map_map]
  rfl

theorem mem_entries {d : Nat} {q : Cube3} {k : Kind} :
    (d, q, k) ∈ entries c nx ny nz px py pz ↔ d < 4 ∧ q ∈ cubes nx ny nz px py pz d ∧ k ∈ kindsOf c d := by
  simp only [entries, List.mem_flatMap, List.mem_map, List.mem_range, Prod.mk.injEq]
  constructor
  · rintro ⟨d', h, ⟨q', k'⟩, m, rfl, e⟩
    cases e
    exact ⟨h, List.pair_mem_product.1 m⟩
  · rintro ⟨h, m⟩; exact ⟨d, h, (q, k), List.pair_mem_product.2 m, rfl, rfl⟩

theorem kindsOf_nodup (c : Eclass) {d : Nat} (hd : d < 4) : (kindsOf c d).Nodup := by
  interval_cases d <;> cases c <;> decide

theorem entries_nodup : (entries c nx ny nz px py pz).Nodup := by
  rw [entries, List.nodup_flatMap]
  constructor
  · intro d hd
    exact ((cubes_nodup d).product (kindsOf_nodup c (List.mem_range.1 hd))).map fun a b h => by simpa using h
  · refine List.nodup_range.imp fun {a b} hab => ?_
    intro x hx hy
    simp only [List.mem_map] at hx hy
    obtain ⟨_, _, rfl⟩ := hx
    obtain ⟨_, _, h⟩ := hy
    exact hab (Prod.mk.inj h).1.symm

/-- The two sides of a connection. -/
theorem mem_sides {d : Nat} {q : Cube3} {k : Kind} {x : Int × Int} : x ∈ sides (mk' c nx ny nz (d, q, k)) ↔
    x = ((treeId c nx ny q k.s : Int), (k.F : Int)) ∨ x = ((treeId c nx ny (next nx ny nz d q) k.s' : Int), (k.F' : Int)) := by
  simp only [mk', mk, Stash.facejoin, sides, Nat.add_zero]
  split
  · simp
  · simp [or_comm]

theorem joined_iff {t F t' F' o : Int} : Joined ((entries c nx ny nz px py pz).map (mk' c nx ny nz)) t F t' F' o ↔
    ∃ d q k, d < 4 ∧ q ∈ cubes nx ny nz px py pz d ∧ k ∈ kindsOf c d ∧ o = k.o ∧
      ((t = treeId c nx ny q k.s ∧ F = k.F ∧ t' = treeId c nx ny (next nx ny nz d q) k.s' ∧ F' = k.F') ∨
       (t' = treeId c nx ny q k.s ∧ F' = k.F ∧ t = treeId c nx ny (next nx ny nz d q) k.s' ∧ F = k.F')) := by
  have key : ∀ (d : Nat) (q : Cube3) (k : Kind), ((mk' c nx ny nz (d, q, k)).orientation = o ∧
      (((mk' c nx ny nz (d, q, k)).id1 = t ∧ (mk' c nx ny nz (d, q, k)).face1 = F ∧ (mk' c nx ny nz (d, q, k)).id2 = t' ∧
        (mk' c nx ny nz (d, q, k)).face2 = F') ∨ ((mk' c nx ny nz (d, q, k)).id2 = t ∧ (mk' c nx ny nz (d, q, k)).face2 = F ∧
        (mk' c nx ny nz (d, q, k)).id1 = t' ∧ (mk' c nx ny nz (d, q, k)).face1 = F'))) ↔ (o = k.o ∧
      ((t = treeId c nx ny q k.s ∧ F = k.F ∧ t' = treeId c nx ny (next nx ny nz d q) k.s' ∧ F' = k.F') ∨
       (t' = treeId c nx ny q k.s ∧ F' = k.F ∧ t = treeId c nx ny (next nx ny nz d q) k.s' ∧ F = k.F'))) := by
    intro d q k
    simp only [mk', mk, Stash.facejoin, Nat.add_zero]
    split <;> omega
  constructor
  · rintro ⟨j, hj, h⟩
    obtain ⟨⟨d, q, k⟩, hm, rfl⟩ := List.mem_map.1 hj
    obtain ⟨a1, a2, a3⟩ := mem_entries.1 hm
    exact ⟨d, q, k, a1, a2, a3, (key d q k).1 h⟩
  · rintro ⟨d, q, k, a1, a2, a3, h⟩
    exact ⟨_, List.mem_map.2 ⟨(d, q, k), mem_entries.2 ⟨a1, a2, a3⟩, rfl⟩, (key d q k).2 h⟩

theorem sides_nodup : (((entries c nx ny nz px py pz).map (mk' c nx ny nz)).flatMap sides).Nodup := by
  rw [List.flatMap_map, List.nodup_flatMap]
  constructor
  · rintro ⟨d, q, k⟩ hm
    obtain ⟨hd, hq, hk⟩ := mem_entries.1 hm
    have hv := cubes_valid hq
    obtain ⟨hs, hs', _⟩ := kinds_ok hd hk
    have ne : ((treeId c nx ny q k.s : Int), (k.F : Int)) ≠ ((treeId c nx ny (next nx ny nz d q) k.s' : Int), (k.F' : Int)) := by
      intro e
      obtain ⟨e1, e2⟩ := Prod.mk.inj e
      exact (kinds_unique hd hd hk hk).2.1 (treeId_inj hv (next_valid hd hv) hs hs' (by exact_mod_cast e1)).2 (by exact_mod_cast e2)
    simp only [mk', mk, Stash.facejoin, sides, Nat.add_zero]
    split
    · simpa using ne
    · simpa using Ne.symm ne
  · refine entries_nodup.imp_of_mem ?_
    rintro ⟨d, q, k⟩ ⟨d', q', k'⟩ hm hm' hne x hx hy
    obtain ⟨hd, hq, hk⟩ := mem_entries.1 hm
    obtain ⟨hd', hq', hk'⟩ := mem_entries.1 hm'
    have hv := cubes_valid hq
    have hv' := cubes_valid hq'
    obtain ⟨hs, ht, _⟩ := kinds_ok hd hk
    obtain ⟨hs', ht', _⟩ := kinds_ok hd' hk'
    obtain ⟨u1, u2, u3⟩ := kinds_unique hd hd' hk hk'
    obtain ⟨_, w2, _⟩ := kinds_unique hd' hd hk' hk
    refine hne ?_
    rcases mem_sides.1 hx with rfl | rfl <;> rcases mem_sides.1 hy with e | e <;> obtain ⟨e1, e2⟩ := Prod.mk.inj e
    · obtain ⟨rfl, es⟩ := treeId_inj hv hv' hs hs' (by exact_mod_cast e1)
      obtain ⟨rfl, rfl⟩ := u1 es (by exact_mod_cast e2)
      rfl
    · obtain ⟨_, es⟩ := treeId_inj hv (next_valid hd' hv') hs ht' (by exact_mod_cast e1)
      exact (u2 es (by exact_mod_cast e2)).elim
    · obtain ⟨_, es⟩ := treeId_inj (next_valid hd hv) hv' ht hs' (by exact_mod_cast e1)
      exact (w2 es.symm (by exact_mod_cast e2.symm)).elim
    · obtain ⟨eq, es⟩ := treeId_inj (next_valid hd hv) (next_valid hd' hv') ht ht' (by exact_mod_cast e1)
      obtain ⟨rfl, rfl⟩ := u3 es (by exact_mod_cast e2)
      rw [next_inj hd hv hv' eq]

theorem conforming (hc : c ≠ .pyramid) : Conforming c.dim (classes c nx ny nz) ((entries c nx ny nz px py pz).map (mk' c nx ny nz)) where
  dim_le := by cases c <;> decide
  dim_eq := fun c' h => by rw [List.eq_of_mem_replicate h]
  faces := by
    intro j hj
    obtain ⟨⟨d, q, k⟩, hm, rfl⟩ := List.mem_map.1 hj
    obtain ⟨hd, hq, hk⟩ := mem_entries.1 hm
    have hv := cubes_valid hq
    obtain ⟨hs, hs', hF, hF', hb, _, ho⟩ := kinds_ok hd hk
    have l1 := treeId_lt hv hs
    have l2 := treeId_lt (next_valid hd hv) hs'
    have g1 : (classes c nx ny nz)[treeId c nx ny q k.s]? = some c := by rw [classes, List.getElem?_replicate, if_pos l1]
    have g2 : (classes c nx ny nz)[treeId c nx ny (next nx ny nz d q) k.s']? = some c := by rw [classes, List.getElem?_replicate, if_pos l2]
    cases hbb : faceType c k.F with
    | none => rw [hbb] at ho; exact absurd ho (by simp)
    | some b =>
      rw [hbb] at hb ho
      replace ho : k.o < b.numVertices := ho
      refine ⟨c, c, b, ?_⟩
      simp only [mk', mk, Stash.facejoin, Nat.add_zero]
      split <;> simp [g1, g2, hb, hbb, ho, hF, hF']
  once := sides_nodup

/-! ### The faces of the grid -/

theorem lface_bounds {s F : Nat} {u : GridPoint} (h : u ∈ lface c s F) (k : Fin 3) : u k = 0 ∨ u k = 1 := by
  obtain ⟨v, _, rfl⟩ := List.mem_map.1 h
  simp only [cubeCorner]
  omega

theorem lface_nonempty {s F : Nat} (hF : F < c.numFaces) : ∃ u, u ∈ lface c s F := by
  have : (faceVertices c).getD F [] ≠ [] := by
    revert F
    cases c <;> decide
  obtain ⟨v, hv⟩ := List.exists_mem_of_ne_nil _ this
  exact ⟨_, List.mem_map.2 ⟨v, hv, rfl⟩⟩

theorem SameFace.symm {t F t' F' : Nat} {L : GridPoint} (h : SameFace c nx ny t F t' F' L) : SameFace c nx ny t' F' t F (-L) := fun p => by
  rw [h, sub_neg_eq_add, add_sub_cancel_right]

theorem kind_same {d : Nat} (hd : d < 4) {k : Kind} (hk : k ∈ kindsOf c d) {q : Cube3} (hq : ValidCube nx ny nz q) {L : GridPoint}
    (e : cubePt q + axisOf d = cubePt (next nx ny nz d q) + L) :
    SameFace c nx ny (treeId c nx ny q k.s) k.F (treeId c nx ny (next nx ny nz d q) k.s') k.F' L := by
  intro p
  obtain ⟨hs, hs', _⟩ := kinds_ok hd hk
  obtain ⟨f1, f2⟩ := kinds_face hd hk
  rw [mem_gridFace hq hs, mem_gridFace (next_valid hd hq) hs']
  have e' : p - L - cubePt (next nx ny nz d q) = p - cubePt q - axisOf d := by
    rw [sub_sub, sub_sub, add_comm L, ← e]
  rw [e']
  exact ⟨fun h => f1 _ h, fun h => by have := f2 _ h; rwa [sub_add_cancel] at this⟩

theorem same_kind (hc : c ≠ .pyramid) {q q' : Cube3} (hq : ValidCube nx ny nz q) (hq' : ValidCube nx ny nz q') {s s' F F' : Nat}
    (hs : s < treesPerCube c) (hs' : s' < treesPerCube c) (hF : F < c.numFaces) (hF' : F' < c.numFaces) {L : GridPoint}
    (hL : Period ![nx, ny, nz] ![px, py, pz] L) (h : SameFace c nx ny (treeId c nx ny q s) F (treeId c nx ny q' s') F' L) :
    (q = q' ∧ s = s' ∧ F = F') ∨ ∃ d < 4, ∃ k ∈ kindsOf c d,
      (k.s = s ∧ k.F = F ∧ k.s' = s' ∧ k.F' = F' ∧ q ∈ cubes nx ny nz px py pz d ∧ q' = next nx ny nz d q) ∨
      (k.s' = s ∧ k.F' = F ∧ k.s = s' ∧ k.F = F' ∧ q' ∈ cubes nx ny nz px py pz d ∧ q = next nx ny nz d q') := by
  have f1 : ∀ u ∈ lface c s F, u - (cubePt q' + L - cubePt q) ∈ lface c s' F' := by
    intro u hu
    have := (h (u + cubePt q)).1 ((mem_gridFace hq hs).2 (by rwa [add_sub_cancel_right]))
    rw [mem_gridFace hq' hs'] at this
    have e : u + cubePt q - L - cubePt q' = u - (cubePt q' + L - cubePt q) := by abel
    rwa [e] at this
  have f2 : ∀ u ∈ lface c s' F', u + (cubePt q' + L - cubePt q) ∈ lface c s F := by
    intro u hu
    have := (h (u + cubePt q' + L)).2 ((mem_gridFace hq' hs').2 (by
      have e : u + cubePt q' + L - L - cubePt q' = u := by abel
      rwa [e]))
    rw [mem_gridFace hq hs] at this
    have e : u + cubePt q' + L - cubePt q = u + (cubePt q' + L - cubePt q) := by abel
    rwa [e] at this
  have hv : ∀ k, (cubePt q' + L - cubePt q) k ∈ [(-1 : Int), 0, 1] := by
    intro k
    obtain ⟨u, hu⟩ := lface_nonempty (s := s) hF
    have b1 := lface_bounds hu k
    have b2 := lface_bounds (f1 u hu) k
    rw [Pi.sub_apply] at b2
    simp only [List.mem_cons, List.not_mem_nil, or_false]
    omega
  rcases kinds_complete hc hs hF hs' hF' hv f1 f2 with ⟨rfl, rfl, e⟩ | ⟨d, hd, k, hk, ⟨a1, a2, a3, a4, e⟩ | ⟨a1, a2, a3, a4, e⟩⟩
  · refine Or.inl ⟨?_, rfl, rfl⟩
    have e' : cubePt q + axisOf 0 = cubePt q' + L := by
      rw [sub_eq_zero.1 e]; funext k; simp [axisOf]
    exact (shift_conv (px := px) (py := py) (pz := pz) (by decide) hq hq' hL e').2.symm
  · refine Or.inr ⟨d, List.mem_range.1 hd, k, hk, Or.inl ⟨a1, a2, a3, a4, ?_⟩⟩
    exact shift_conv (List.mem_range.1 hd) hq hq' hL (by rw [← e]; abel)
  · refine Or.inr ⟨d, List.mem_range.1 hd, k, hk, Or.inr ⟨a1, a2, a3, a4, ?_⟩⟩
    refine shift_conv (List.mem_range.1 hd) hq' hq hL.neg ?_
    have : axisOf d = -(cubePt q' + L - cubePt q) := by rw [e, neg_neg]
    rw [this]; abel

theorem fits_matched (S : P4ests) {b : Eclass} {q q' : Cube3} (hq : ValidCube nx ny nz q) (hq' : ValidCube nx ny nz q') {s s' F F' o : Nat}
    (hs : s < treesPerCube c) (hs' : s' < treesPerCube c) (hF : F < c.numFaces) (hF' : F' < c.numFaces) (hb : faceType c F = some b)
    (hb' : faceType c F' = some b) {v L : GridPoint} (e : cubePt q + v = cubePt q' + L) (h : Fits c b s F s' F' o v) {α : Type} (T : GridPoint → α) :
    ∀ i j, i < b.numVertices → j < b.numVertices → Glued S b c F c F' o (rootFaceCorner S c F i) (rootFaceCorner S c F' j) →
      T (gridVertex c nx ny (treeId c nx ny q s) (((faceVertices c).getD F []).getD i 0)) =
        T (gridVertex c nx ny (treeId c nx ny q' s') (((faceVertices c).getD F' []).getD j 0) + L) := by
  intro i j hi hj hg
  have hd : b.dim ≤ 2 := by
    revert hb
    cases c <;> simp only [Eclass.numFaces] at hF <;> interval_cases F <;> intro h <;> cases h <;> decide
  obtain ⟨g1, g2⟩ := hg
  rw [JoinByVertices.corner_coord S hF hb hi, JoinByVertices.corner_coord S hF' hb' hj, symCorner_sc S hd hi, symCorner_sc S hd hj] at g1 g2
  have hm : Main c F c F' ↔ F ≤ F' := by simp [Main]
  have := h i hi j hj (by
    split
    · exact g1 (hm.2 ‹_›)
    · exact g2 (fun hh => absurd (hm.1 hh) ‹_›))
  rw [gridVertex_tree hq hs, gridVertex_tree hq' hs', this]
  congr 1
  rw [add_comm (cubeCorner _), ← add_assoc, e]
  abel

end T8.HypercubePad
