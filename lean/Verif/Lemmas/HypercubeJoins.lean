/-
The face connections of `t8_cmesh_new_hypercube_pad_ext`: each connection joins tree `s` of a cube with tree `s'` of the same cube or of
the next cube in one of the directions.
-/
import Verif.Lemmas.HypercubeVertices
import Verif.Props.JoinByVertices
import Mathlib.Data.List.ProdSigma
import Mathlib.Data.Fintype.Pi

namespace T8.HypercubePad
open Neighbor

/-- A kind of connection: tree and face, tree and face of the other side, orientation. -/
structure Kind where
  s : Nat
  s' : Nat
  F : Nat
  F' : Nat
  o : Nat
  deriving DecidableEq

/-- The kinds of connections inside of a cube (`d = 0`) and in the three directions. -/
def kindsOf (c : Eclass) (d : Nat) : List Kind :=
  match c, d with
  | .line, 1 => [⟨0, 0, 1, 0, 0⟩]
  | .quad, 1 => [⟨0, 0, 1, 0, 0⟩]
  | .quad, 2 => [⟨0, 0, 3, 2, 0⟩]
  | .hex, 1 => [⟨0, 0, 1, 0, 0⟩]
  | .hex, 2 => [⟨0, 0, 3, 2, 0⟩]
  | .hex, 3 => [⟨0, 0, 5, 4, 0⟩]
  | .triangle, 0 => [⟨0, 1, 1, 2, 0⟩]
  | .triangle, 1 => [⟨0, 1, 0, 1, 0⟩]
  | .triangle, 2 => [⟨1, 0, 0, 2, 1⟩]
  | .prism, 0 => [⟨0, 1, 1, 2, 0⟩]
  | .prism, 1 => [⟨0, 1, 0, 1, 0⟩]
  | .prism, 2 => [⟨1, 0, 0, 2, 1⟩]
  | .prism, 3 => [⟨0, 0, 4, 3, 0⟩, ⟨1, 1, 4, 3, 0⟩]
  | .tet, 0 => [⟨0, 1, 2, 1, 0⟩, ⟨1, 2, 2, 1, 0⟩, ⟨2, 3, 2, 1, 0⟩, ⟨3, 4, 2, 1, 0⟩, ⟨4, 5, 2, 1, 0⟩, ⟨5, 0, 2, 1, 0⟩]
  | .tet, 1 => [⟨0, 4, 0, 3, 0⟩, ⟨1, 3, 0, 3, 2⟩]
  | .tet, 2 => [⟨2, 0, 0, 3, 0⟩, ⟨3, 5, 0, 3, 2⟩]
  | .tet, 3 => [⟨5, 1, 0, 3, 2⟩, ⟨4, 2, 0, 3, 0⟩]
  | _, _ => []

/-- A cube, in the order of the loops: z, y, x. -/
abbrev Cube3 := Nat × Nat × Nat

/-- The number of a cube. -/
def cubeId (nx ny : Nat) (q : Cube3) : Nat := q.1 * ny * nx + q.2.1 * nx + q.2.2

/-- The next cube in direction `d`. -/
def next (nx ny nz d : Nat) (q : Cube3) : Cube3 :=
  match d with
  | 1 => (q.1, q.2.1, if q.2.2 = nx - 1 then 0 else q.2.2 + 1)
  | 2 => (q.1, if q.2.1 = ny - 1 then 0 else q.2.1 + 1, q.2.2)
  | 3 => (if q.1 = nz - 1 then 0 else q.1 + 1, q.2.1, q.2.2)
  | _ => q

/-- The tree `s` of a cube. -/
def treeId (c : Eclass) (nx ny : Nat) (q : Cube3) (s : Nat) : Nat := cubeId nx ny q * treesPerCube c + s

def mk (c : Eclass) (nx ny nz offset d : Nat) (i : Cube3 × Kind) : Stash.JoinFace :=
  Stash.facejoin (treeId c nx ny i.1 i.2.s + offset : Nat) (treeId c nx ny (next nx ny nz d i.1) i.2.s' + offset : Nat) i.2.F i.2.F' i.2.o

/-- The cubes that have a next cube in direction `d`. -/
def cubes (nx ny nz : Nat) (px py pz : Bool) (d : Nat) : List Cube3 :=
  List.range (nz - if d = 3 ∧ pz = false then 1 else 0) ×ˢ List.range (ny - if d = 2 ∧ py = false then 1 else 0) ×ˢ
    List.range (nx - if d = 1 ∧ px = false then 1 else 0)

theorem loops_eq (nz ny nx : Nat) (body : Nat → Nat → Nat → List Stash.JoinFace) (ks : List Kind) (f : Cube3 × Kind → Stash.JoinFace)
    (h : ∀ z y x, x < nx → body z y x = ks.map fun k => f ((z, y, x), k)) :
    loops nz ny nx body = ((List.range nz ×ˢ List.range ny ×ˢ List.range nx) ×ˢ ks).map f := by
  have : loops nz ny nx body = loops nz ny nx fun z y x => ks.map fun k => f ((z, y, x), k) := by
    rw [loops, loops]
    congr 1; funext z
    congr 1; funext y
    have : ∀ x ∈ List.range nx, body z y x = ks.map fun k => f ((z, y, x), k) := fun x hx => h z y x (List.mem_range.1 hx)
    rw [List.flatMap_congr this]
  rw [this]
  simp [loops, SProd.sprod, List.product, List.map_flatMap, List.flatMap_assoc, List.flatMap_map, List.map_map, Function.comp_def]

theorem joinInside_eq {c : Eclass} (hc : c ≠ .pyramid) (nx ny nz offset z y x : Nat) :
    joinInside c nx ny offset z y x = (kindsOf c 0).map fun k => mk c nx ny nz offset 0 ((z, y, x), k) := by
  cases c <;> first | exact absurd rfl hc | rfl | (simp [joinInside, kindsOf, mk, treeId, cubeId, next, treesPerCube, List.range_succ]; done)

theorem joinX_eq {c : Eclass} (hc : c ≠ .pyramid) (hd : 1 ≤ c.dim) (nx ny nz offset z y x : Nat) :
    joinX c nx ny offset z y x = (kindsOf c 1).map fun k => mk c nx ny nz offset 1 ((z, y, x), k) := by
  cases c <;> first
    | exact absurd rfl hc
    | exact absurd hd (by decide)
    | (by_cases hx : x = nx - 1
       · simp [joinX, kindsOf, mk, treeId, cubeId, next, treesPerCube, List.range_succ, hx]; try omega
       · simp [joinX, kindsOf, mk, treeId, cubeId, next, treesPerCube, List.range_succ, hx]; try (norm_num [Nat.add_assoc, Nat.add_mul, Int.add_assoc, Int.add_mul]))

theorem joinY_eq {c : Eclass} (hc : c ≠ .pyramid) (hd : 2 ≤ c.dim) (nx ny nz offset z y x : Nat) :
    joinY c nx ny offset z y x = (kindsOf c 2).map fun k => mk c nx ny nz offset 2 ((z, y, x), k) := by
  have e : z * ny * nx + (y + 1) * nx + x = z * ny * nx + y * nx + x + nx := by ring
  cases c <;> first
    | exact absurd rfl hc
    | exact absurd hd (by decide)
    | (by_cases hx : y = ny - 1
       · simp [joinY, kindsOf, mk, treeId, cubeId, next, treesPerCube, hx]
       · simp only [joinY, kindsOf, mk, treeId, cubeId, next, treesPerCube, hx, if_false, e, List.map, reduceCtorEq, or_false, or_true,
          if_true, false_or, or_self]; try (norm_num [Nat.add_mul]); try ring_nf)

theorem joinZ_eq {c : Eclass} (hc : c ≠ .pyramid) (hd : 3 ≤ c.dim) (nx ny nz : Nat) {offset : Nat} (ho : c ≠ .tet ∨ offset = 0) (z y x : Nat) :
    joinZ c nx ny nz offset z y x = (kindsOf c 3).map fun k => mk c nx ny nz offset 3 ((z, y, x), k) := by
  have e : (z + 1) * ny * nx + y * nx + x = z * ny * nx + y * nx + x + ny * nx := by ring
  cases c <;> first
    | exact absurd rfl hc
    | exact absurd hd (by decide)
    | (by_cases hx : z = nz - 1
       · rcases ho with h | rfl <;> first
          | exact absurd rfl h
          | (simp [joinZ, kindsOf, mk, treeId, cubeId, next, treesPerCube, hx, List.range_succ])
       · rcases ho with h | rfl <;> first
          | exact absurd rfl h
          | (simp only [joinZ, kindsOf, mk, treeId, cubeId, next, treesPerCube, hx, if_false, e, List.map, reduceCtorEq, if_true,
              List.range_succ, List.range_zero, List.nil_append, List.map_append, List.cons_append]; try (norm_num [Nat.add_mul])))

theorem flatMap_nil' {α β : Type} (l : List α) : l.flatMap (fun _ => ([] : List β)) = [] := by
  induction l with
  | nil => rfl
  | cons a l ih => simp [ih]

/-- All connections. -/
theorem joins_eq {c : Eclass} (hc : c ≠ .pyramid) {nx ny nz : Nat} (hx : 0 < nx) (hy : 0 < ny) (hz : 0 < nz) {px py pz : Bool}
    (h1 : c.dim < 1 → nx = 1 ∧ px = false) (h2 : c.dim < 2 → ny = 1 ∧ py = false) (h3 : c.dim < 3 → nz = 1 ∧ pz = false)
    {offset : Nat} (ho : c ≠ .tet ∨ offset = 0) :
    joins c nx ny nz px py pz offset = some ((List.range 4).flatMap fun d =>
      (cubes nx ny nz px py pz d ×ˢ kindsOf c d).map (mk c nx ny nz offset d)) := by
  have a1 : nx - (if px = true then 0 else 1) = 0 ∨ 1 ≤ c.dim := by
    by_cases h : c.dim < 1
    · left; obtain ⟨rfl, rfl⟩ := h1 h; rfl
    · right; omega
  have a2 : ny - (if py = true then 0 else 1) = 0 ∨ 2 ≤ c.dim := by
    by_cases h : c.dim < 2
    · left; obtain ⟨rfl, rfl⟩ := h2 h; rfl
    · right; omega
  have a3 : nz - (if pz = true then 0 else 1) = 0 ∨ 3 ≤ c.dim := by
    by_cases h : c.dim < 3
    · left; obtain ⟨rfl, rfl⟩ := h3 h; rfl
    · right; omega
  have i1 : ∀ (n : Nat) (b : Bool) , (n - if b = true then 0 else 1) = n - if b = false then 1 else 0 := by
    intro n b; cases b <;> rfl
  rw [joins]
  simp only [hc, hx, hy, hz, a1, a2, a3, assertO_true, ne_eq, not_false_eq_true, and_self, Option.bind_eq_bind, Option.bind_some]
  show some _ = some _
  congr 1
  have l0 := loops_eq nz ny nx (joinInside c nx ny offset) (kindsOf c 0) (mk c nx ny nz offset 0)
    fun z y x _ => joinInside_eq hc nx ny nz offset z y x
  have l1 : loops nz ny (nx - if px = true then 0 else 1) (joinX c nx ny offset) =
      (cubes nx ny nz px py pz 1 ×ˢ kindsOf c 1).map (mk c nx ny nz offset 1) := by
    rcases a1 with h | h
    · have h' := h
      rw [i1] at h'
      simp [h, cubes, loops, h', SProd.sprod, List.product, flatMap_nil']
    · rw [loops_eq _ _ _ _ _ _ fun z y x _ => joinX_eq hc h nx ny nz offset z y x, i1]
      simp [cubes]
  have l2 : loops nz (ny - if py = true then 0 else 1) nx (joinY c nx ny offset) =
      (cubes nx ny nz px py pz 2 ×ˢ kindsOf c 2).map (mk c nx ny nz offset 2) := by
    rcases a2 with h | h
    · have h' := h
      rw [i1] at h'
      simp [h, cubes, loops, h', SProd.sprod, List.product, flatMap_nil']
    · rw [loops_eq _ _ _ _ _ _ fun z y x _ => joinY_eq hc h nx ny nz offset z y x, i1]
      simp [cubes]
  have l3 : loops (nz - if pz = true then 0 else 1) ny nx (joinZ c nx ny nz offset) =
      (cubes nx ny nz px py pz 3 ×ˢ kindsOf c 3).map (mk c nx ny nz offset 3) := by
    rcases a3 with h | h
    · have h' := h
      rw [i1] at h'
      simp [h, cubes, loops, h', SProd.sprod, List.product, flatMap_nil']
    · rw [loops_eq _ _ _ _ _ _ fun z y x _ => joinZ_eq hc h nx ny nz ho z y x, i1]
      simp [cubes]
  rw [l0, l1, l2, l3]
  simp [List.range_succ, cubes]

end T8.HypercubePad
