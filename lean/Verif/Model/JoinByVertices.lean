/-
Model of `t8_cmesh_set_join_by_vertices`, src/t8_cmesh/t8_cmesh_helpers.cxx:36-257: the face connections of a coarse mesh are
computed from the coordinates of the vertices of the trees.

Simplifications: `double` numbers are elements of ℚ; the results of floating point computations (number of the bin of a
coordinate, comparison with the tolerance) are arbitrary functions of the coordinates, so that each kind of rounding is
covered; `exactArith` is the version without rounding. An entry -1 of the array `conn` is `none`; the array is a function. The
indices `(itree * 8 + ivert) * 3 + icoord` of the array of vertices become the arguments of a function `V`.
-/
import Verif.Model.Geometry
import Verif.Model.Eclass
import Mathlib.Algebra.Order.Round
import Mathlib.Algebra.Order.Floor.Defs
import Mathlib.Data.Rat.Floor

namespace T8.JoinByVertices
open Neighbor Geometry

/-- The floating point computations, which depend on the minimum and the maximum of the coordinates. -/
structure Arith where
  /-- `static_cast<unsigned long> ((x - min_coord) * inverse_bin_size + 0.5)`, lines 80, 108-111. -/
  bin : ℚ → ℚ → ℚ → BitVec 64
  /-- `std::abs (x - y) < tolerance`, lines 71, 166. -/
  close : ℚ → ℚ → ℚ → ℚ → Bool

/-- The computations without rounding; `eps` is `T8_PRECISION_EPS`. -/
def exactArith (eps : ℚ) : Arith where
  bin lo hi x := BitVec.ofInt 64 ⌊(x - lo) * (1000000000 / (hi - lo)) + 1 / 2⌋
  close lo hi x y := decide (|x - y| < 10 * eps * |hi - lo|)

/-- `t8_face_vertex_to_tree_vertex`. -/
def faceVertex (c : Eclass) (F i : Nat) : Nat := ((faceVertices c).getD F []).getD i 0

/-- `t8_eclass_num_vertices[t8_eclass_face_types[eclass][iface]]`. -/
def numFaceVertices (c : Eclass) (F : Nat) : Nat :=
  match faceType c F with
  | some b => b.numVertices
  | none => 0

/-- The classes and the vertices of the trees: `eclasses`, `vertices`, with the number of trees. -/
structure Input where
  classes : List Eclass
  V : Nat → Nat → Point

variable (A : Arith) (I : Input)

/-- `eclasses[itree]`. -/
def Input.cls (t : Nat) : Eclass := I.classes.getD t .vertex

/-- The coordinates that the loop of lines 50-68 compares. -/
def Input.coords : List ℚ :=
  (List.range I.classes.length).flatMap fun t => (List.range (I.cls t).numVertices).flatMap fun v =>
    (List.range (I.cls t).dim).map fun k => I.V t v (Fin.ofNat 3 k)

/-- `min_coord` and `max_coord`, lines 46-68. -/
def Input.minCoord : ℚ := I.coords.foldl (fun m x => if x < m then x else m) (I.V 0 0 0)
def Input.maxCoord : ℚ := I.coords.foldl (fun m x => if m < x then x else m) (I.V 0 0 0)

/-- The point of vertex `i` of face `F` of tree `t`. -/
def Input.point (x : Nat × Nat) (i : Nat) : Point := I.V x.1 (faceVertex (I.cls x.1) x.2 i)

/-- The number of vertices of a face. -/
def Input.numVerts (x : Nat × Nat) : Nat := numFaceVertices (I.cls x.1) x.2

/-- The hash of a face, lines 96-113. -/
def hash (x : Nat × Nat) : BitVec 64 :=
  (List.range (I.numVerts x)).foldl (fun h i => (List.range 3).foldl
    (fun h k => h + BitVec.ofNat 64 k + A.bin I.minCoord I.maxCoord (I.point x i (Fin.ofNat 3 k))) h) 0

/-- Lines 156-169: all coordinates of two vertices match. -/
def sameVertex (p q : Point) : Bool :=
  ((List.range 3).foldl (fun n k => if A.close I.minCoord I.maxCoord (p (Fin.ofNat 3 k)) (q (Fin.ofNat 3 k)) then n + 1 else n) 0) == 3

/-- Lines 138-178: `match_count` and `face_vert_order`. The second loop does not stop at a match. -/
def matchVertices (x y : Nat × Nat) : Nat × List Int :=
  (List.range (I.numVerts x)).foldl (fun s i =>
    let r := (List.range (I.numVerts y)).foldl (fun (r : Nat × Int) j =>
      if sameVertex A I (I.point x i) (I.point y j) then (r.1 + 1, (j : Int)) else r) (s.1, -1)
    (r.1, s.2 ++ [r.2])) (0, [])

/-- Lines 126-182: does the face `x` match the registered face `y`? -/
def isMatch (x y : Nat × Nat) : Bool :=
  if I.numVerts x ≠ I.numVerts y then false
  else (matchVertices A I x y).1 == I.numVerts x

/-- Lines 188-218: the orientation. `none`: `t8_eclass_compare` fails. -/
def orientation (x y : Nat × Nat) : Option Int := do
  let compare ← eclassCompare (I.cls x.1) (I.cls y.1)
  let smaller : Bool := if compare < 0 then true else if compare > 0 then false else decide (x.2 < y.2)
  let order := (matchVertices A I x y).2
  if smaller then return order.getD 0 (-1)
  else
    match (List.range (I.numVerts x)).find? fun i => order.getD i (-1) = 0 with
    | some i => return (i : Int)
    | none => return -1

/-- An entry of `conn`: tree and face of the neighbor, orientation. -/
abbrev Conn := Nat × Nat → Option ((Nat × Nat) × Int)

/-- The state of the loop over all faces: the hash table and `conn`. Faces with the same hash are found in the order of their
insertion (C++11: `std::multimap::insert`). -/
structure State where
  faces : List (BitVec 64 × (Nat × Nat))
  conn : Conn

/-- One round, lines 86-239. -/
def step (both : Bool) (s : State) (x : Nat × Nat) : Option State :=
  let h := hash A I x
  let range := (s.faces.filter fun e => e.1 = h).map (·.2)
  let faces := s.faces ++ [(h, x)]
  match range.find? (isMatch A I x) with
  | none => some ⟨faces, s.conn⟩
  | some y => do
    let o ← orientation A I x y
    let conn := Function.update s.conn x (some (y, o))
    let conn := if both then Function.update conn y (some (x, o)) else conn
    return ⟨faces, conn⟩

/-- All faces in the order of the loops. -/
def Input.faces : List (Nat × Nat) :=
  (List.range I.classes.length).flatMap fun t => (List.range (I.cls t).numFaces).map fun f => (t, f)

/-- The array `conn`. -/
def connectivity (both : Bool) : Option Conn :=
  (I.faces.foldlM (step A I both) ⟨[], fun _ => none⟩).map (·.conn)

/-- The calls of `t8_cmesh_set_join`, lines 243-256. -/
def joins (both : Bool) : Option (List Stash.JoinFace) :=
  (connectivity A I both).map fun conn => I.faces.filterMap fun x =>
    (conn x).map fun r => ⟨x.1, r.1.1, x.2, r.1.2, r.2⟩

end T8.JoinByVertices
