/-
Model of the standalone scheme for hypercubes (vertex, line, quad, hex):
`src/t8_schemes/t8_standalone/t8_standalone_implementation.hxx` and `t8_standalone_elements.hxx`.

Coordinates are 32 bit integers (`BitVec 32`), linear ids are 64 bit integers (`BitVec 64`) with the
arithmetic of the machine. Levels and child ids (`uint8_t` in the code) are natural numbers: they never
exceed 254.  The functions are parametrised by the dimension `d` and the maximum level `M` of the class,
as the C++ templates are by `TEclass`.  `T8_ASSERT`s that only check the stated preconditions are not part
of the functions; they reappear as hypotheses of the theorems.  The branches for classes with equations
(triangle, tet, prism, pyramid) are `SC_ABORT` in the code and not modelled.
-/
import Verif.Model.Loop
import Mathlib.Data.List.FinRange
import Mathlib.Data.Fintype.Basic

namespace T8.Standalone

/-- The hypercube classes. `t8_standalone_elements.hxx:37-66`: the entries of the tables at the indices of
`T8_ECLASS_VERTEX`, `T8_ECLASS_LINE`, `T8_ECLASS_QUAD`, `T8_ECLASS_HEX`. -/
inductive Cls | vertex | line | quad | hex
  deriving DecidableEq, Repr

/-- `T8_ELEMENT_DIM`, `t8_standalone_elements.hxx:38`. -/
def Cls.dim : Cls → Nat
  | vertex => 0 | line => 1 | quad => 2 | hex => 3

/-- `T8_ELEMENT_MAXLEVEL`, `t8_standalone_elements.hxx:46`. -/
def Cls.maxLevel : Cls → Nat
  | vertex => 254 | line => 30 | quad => 30 | hex => 21

/-- `t8_standalone_element`, `t8_standalone_elements.hxx:87-94`. -/
structure Elem (d : Nat) where
  coords : Fin d → BitVec 32
  level : Nat

instance {d : Nat} : DecidableEq (Elem d) := fun a b =>
  if h : a.coords = b.coords ∧ a.level = b.level then
    isTrue (by cases a; cases b; simp_all)
  else isFalse (by rintro rfl; exact h ⟨rfl, rfl⟩)

variable {d : Nat}

/-- `element_get_len`, `t8_standalone_implementation.hxx:1689`: `1 << (MAXLEVEL - level)`. (For vertices the
shift count exceeds 31, which is undefined in C++; the value is not used, a vertex has no coordinates.) -/
def getLen (M level : Nat) : BitVec 32 := BitVec.twoPow 32 (M - level)

/-- `T8_ELEMENT_NUM_CHILDREN`, `t8_standalone_elements.hxx:52` and `element_get_num_children`,
`t8_standalone_implementation.hxx:470`: 1, 2, 4, 8. -/
def numChildren (d : Nat) : Nat := 2 ^ d

/-- `set_to_root`, `t8_standalone_implementation.hxx:332`. -/
def root (d : Nat) : Elem d := ⟨fun _ => 0, 0⟩

/-- `element_is_equal`, `t8_standalone_implementation.hxx:295`. -/
def isEqual (e f : Elem d) : Bool :=
  if e.level ≠ f.level then false
  else (List.finRange d).all (fun i => e.coords i == f.coords i)

/-- `set_coords_at_level_to_zero`, `t8_standalone_implementation.hxx:1806`. -/
def zeroAtLevel (e : Elem d) (length : BitVec 32) : Fin d → BitVec 32 :=
  fun i => e.coords i &&& ~~~length

/-- `element_get_parent`, `t8_standalone_implementation.hxx:357`. Precondition `0 < level`. -/
def parent (M : Nat) (e : Elem d) : Elem d := ⟨zeroAtLevel e (getLen M e.level), e.level - 1⟩

/-- `element_get_num_siblings`, `t8_standalone_implementation.hxx:387`. -/
def numSiblings (e : Elem d) : Nat := if e.level = 0 then 1 else numChildren d

/-- `put_cube_id_at_level`, `t8_standalone_implementation.hxx:1824`. -/
def putCubeId (e : Elem d) (length : BitVec 32) (cubeId : Nat) : Fin d → BitVec 32 :=
  fun i => e.coords i + (if cubeId &&& (1 <<< i.val) ≠ 0 then length else 0)

/-- `element_get_child`, `t8_standalone_implementation.hxx:435`. For hypercubes the cube id is the child id.
Precondition `childId < numChildren` and `level < MAXLEVEL`. (The assertion in the code also admits
`level = MAXLEVEL`, for which `element_get_len` shifts by a negative amount.) -/
def child (M : Nat) (e : Elem d) (childId : Nat) : Elem d :=
  ⟨putCubeId e (getLen M (e.level + 1)) childId, e.level + 1⟩

/-- `element_is_refinable`, `t8_standalone_implementation.hxx:493`. -/
def isRefinable (M : Nat) (e : Elem d) : Bool := e.level < M

/-- `element_get_children`, `t8_standalone_implementation.hxx:512`: the array `c` after the loop. (The loop
fills it from the last to the first child so that `elem = c[0]` is allowed; each entry is written once.) -/
def children (M : Nat) (e : Elem d) : List (Elem d) :=
  (List.range (numChildren d)).map (fun i => child M e i)

/-- `compute_cubeid`, `t8_standalone_implementation.hxx:1699`. -/
def cubeId (M : Nat) (e : Elem d) (level : Nat) : Nat :=
  if level ≠ 0 then
    (List.finRange d).foldl
      (fun id i => id ||| (if e.coords i &&& getLen M level ≠ 0 then 1 <<< i.val else 0)) 0
  else 0

/-- `element_get_child_id`, `t8_standalone_implementation.hxx:533`. -/
def childId (M : Nat) (e : Elem d) : Int := if e.level = 0 then -1 else cubeId M e e.level

/-- `element_cut_coordinates`, `t8_standalone_implementation.hxx:1789`. `>>` on `int32_t` is arithmetic. -/
def cut (e : Elem d) (shift : Nat) : Fin d → BitVec 32 :=
  fun i => ((e.coords i).sshiftRight shift) <<< shift

/-- `element_get_ancestor`, `t8_standalone_implementation.hxx:1723`. Precondition `l ≤ level`. -/
def ancestor (M : Nat) (e : Elem d) (l : Nat) : Elem d :=
  if e.level = l then e else ⟨cut e (M - l), l⟩

/-- `element_get_ancestor_id`, `t8_standalone_implementation.hxx:560`. -/
def ancestorId (M : Nat) (e : Elem d) (l : Nat) : Int := childId M (ancestor M e l)

/-- `num_descendants_at_leveldiff`, `t8_standalone_implementation.hxx:1854`: `1LL << (dim * leveldiff)` as a
`t8_linearidx_t` (`uint64_t`). -/
def numDescendants (d leveldiff : Nat) : BitVec 64 := BitVec.twoPow 64 (d * leveldiff)

/-- `element_count_leaves`, `t8_standalone_implementation.hxx:1308`. The result is a `t8_gloidx_t`
(`int64_t`): its value is `(countLeaves e l).toInt`. -/
def countLeaves (e : Elem d) (l : Nat) : BitVec 64 :=
  if l < e.level then 0 else numDescendants d (l - e.level)

/-- `count_leaves_from_root`, `t8_standalone_implementation.hxx:1329`. -/
def countLeavesFromRoot (d l : Nat) : BitVec 64 := BitVec.twoPow 64 (l * d)

/-- The inner loop of `element_get_linear_id`, `t8_standalone_implementation.hxx:1252-1259`: the
descendants of the siblings `0, …, cid-1`. -/
def siblingsBefore (M : Nat) (p : Elem d) (L cid : Nat) : BitVec 64 :=
  (List.range cid).foldl (fun s j => s + countLeaves (child M p j) L) 0

/-- The `while (ancestor.level != 0)` loop of `element_get_linear_id`,
`t8_standalone_implementation.hxx:1247-1261`. -/
def linearIdLoop (M L : Nat) (a : Elem d) (id : BitVec 64) : BitVec 64 :=
  if a.level = 0 then id
  else linearIdLoop M L (parent M a) (id + siblingsBefore M (parent M a) L (childId M a).toNat)
termination_by a.level
decreasing_by simp only [parent]; omega

/-- `element_get_linear_id`, `t8_standalone_implementation.hxx:1227`. -/
def linearId (M : Nat) (e : Elem d) (L : Nat) : BitVec 64 :=
  linearIdLoop M L (if L < e.level then ancestor M e L else e) 0

/-- `element_get_first_descendant`, `t8_standalone_implementation.hxx:698`. -/
def firstDescendant (e : Elem d) (l : Nat) : Elem d := ⟨e.coords, l⟩

/-- `element_get_last_descendant`, `t8_standalone_implementation.hxx:722`. -/
def lastDescendant (M : Nat) (e : Elem d) (l : Nat) : Elem d :=
  ⟨fun i => e.coords i ||| (getLen M e.level - getLen M l), l⟩

/-- The `do … while` loop of `element_set_linear_id`, `t8_standalone_implementation.hxx:1195-1212`, from its
second evaluation of the body on: the state is `childindex` and the sums before and until the current
child. -/
def findChild (M L : Nat) (e : Elem d) (id : BitVec 64) : Option (Nat × BitVec 64) := do
  let step (s : Nat × BitVec 64 × BitVec 64) : Option (Nat × BitVec 64 × BitVec 64) := do
    -- one execution of the loop body; `s.1` is `childindex + 1` and `s.2.2` the sum until the current child
    assertO (s.1 < numChildren d)
    some (s.1 + 1, s.2.2, s.2.2 + countLeaves (child M e s.1) L)
  let s0 ← step (0, 0, 0)
  let s ← whileO (fun s => some (decide (s.2.2 ≤ id))) step s0
  some (s.1 - 1, s.2.1)

/-- `element_set_linear_id`, `t8_standalone_implementation.hxx:1166`. -/
def setLinearId (d M L : Nat) (id : BitVec 64) : Option (Elem d) := do
  let el := root d
  if L = 0 then
    assertO (id = 0)
    some el
  else
    assertO (id < countLeaves el L)
    let s ← whileO (fun (s : Elem d × BitVec 64) => some (decide (s.1.level < L)))
      (fun s => do
        if s.2 = 0 then
          -- `element_get_first_descendant` and `return`; the loop ends because the level is now `L`
          some (firstDescendant s.1 L, s.2)
        else
          let c ← findChild M L s.1 s.2
          some (child M s.1 c.1, s.2 - c.2)) (el, id)
    assertO (s.2 = 0)
    some s.1

/-- `element_construct_successor`, `t8_standalone_implementation.hxx:1270`. `none` is the failing assertion
`child_id < num_siblings` (the element is the root). -/
def successor (M : Nat) (e : Elem d) : Option (Elem d) := do
  assertO (0 ≤ childId M e ∧ childId M e < numSiblings e)
  if childId M e = numSiblings e - 1 then
    let s ← successor M (parent M e)
    some (child M s 0)
  else
    some (child M (parent M e) ((childId M e).toNat + 1))
partial_fixpoint

/-- `element_compare`, `t8_standalone_implementation.hxx:1347`. -/
def compare (M : Nat) (e f : Elem d) : Int :=
  let maxlvl := max e.level f.level
  let id1 := linearId M e maxlvl
  let id2 := linearId M f maxlvl
  if id1 = id2 then
    if e.level = f.level then 0 else (e.level : Int) - f.level
  else if id1 < id2 then -1 else 1

/-- `elements_are_family`, `t8_standalone_implementation.hxx:580`. `none`: the array is too short, or the
parent of a level 0 element is requested (assertion in `element_get_parent`). -/
def areFamily (M : Nat) (fam : List (Elem d)) : Option Bool := do
  let f0 ← fam[0]?
  assertO (0 < f0.level)
  let p := parent M f0
  -- the loop over the children, with its early `return 0`
  (List.range (numChildren d)).foldlM (fun ok i => do
    if ok then
      let f ← fam[i]?
      assertO (0 < f.level)
      if compare M p (parent M f) ≠ 0 then some false
      else if compare M f (child M p i) ≠ 0 then some false
      else some true
    else some false) true

/-- `element_is_ancestor`, `t8_standalone_implementation.hxx:621`. -/
def isAncestor (M : Nat) (a b : Elem d) : Bool :=
  if a.level > b.level then false else isEqual (ancestor M b a.level) a

/-- `SC_LOG2_32 (x) + 1` (libsc; the lookup table has `-1` at `0`): the number of bits needed for `x`.
Used in `number_of_leading_zeros`, `t8_standalone_implementation.hxx:1774`. -/
def activeBits (x : BitVec 32) : Nat := if x = 0 then 0 else x.toNat.log2 + 1

/-- `element_get_cube_nca_level`, `t8_standalone_implementation.hxx:1752`. `none` is the failing assertion
in `number_of_leading_zeros`. -/
def ncaLevel (M : Nat) (e f : Elem d) : Option Nat := do
  let x := (List.finRange d).foldl (fun x i => x ||| (e.coords i ^^^ f.coords i)) 0
  assertO (activeBits x ≤ M)
  some (min (M - activeBits x) (min e.level f.level))

/-- `element_get_nca`, `t8_standalone_implementation.hxx:670`. -/
def nca (M : Nat) (e f : Elem d) : Option (Elem d) := do
  let l ← ncaLevel M e f
  some (ancestor M e l)

/-! ### Faces -/

/-- `T8_ELEMENT_NUM_FACES`, `t8_standalone_elements.hxx:58`: 0, 2, 4, 6. -/
def numFaces (d : Nat) : Nat := 2 * d

/-- `get_root_len`, `t8_standalone_implementation.hxx:1837`. -/
def rootLen (d M : Nat) : BitVec 32 := if d = 0 then 0 else BitVec.twoPow 32 M

/-- `element_get_num_face_children`, `t8_standalone_implementation.hxx:753`. -/
def numFaceChildren (d : Nat) : Nat := if d = 0 then 0 else 1 <<< (d - 1)

/-- `get_hypercube_face_corner_index`, `t8_standalone_implementation.hxx:2120`. -/
def faceCornerIndex (faceDim faceSign corner : Nat) : Nat :=
  ((corner >>> faceDim) <<< (faceDim + 1)) + (faceSign <<< faceDim) + (corner &&& (1 <<< faceDim - 1))

/-- `element_get_children_at_face`, `t8_standalone_implementation.hxx:776`: the array of child indices. -/
def childrenAtFaceIds (d f : Nat) : List Nat :=
  (List.range (numFaceChildren d)).map (fun k => faceCornerIndex (f / 2) (f % 2) k)

/-- `element_get_children_at_face`, `t8_standalone_implementation.hxx:776`: the array of children. -/
def childrenAtFace (M : Nat) (e : Elem d) (f : Nat) : List (Elem d) :=
  (childrenAtFaceIds d f).map (fun i => child M e i)

/-- `element_face_get_child_face`, `t8_standalone_implementation.hxx:820`. -/
def faceChildFace (f : Nat) (_k : Nat) : Nat := f

/-- `element_face_get_parent_face`, `t8_standalone_implementation.hxx:837`; `none` is the return value `-1`. -/
def faceParentFace (M : Nat) (e : Elem d) (f : Nat) (hf : f / 2 < d) : Option Nat :=
  if e.level = 0 then none
  else if ((e.coords ⟨f / 2, hf⟩).sshiftRight (M - e.level)).toInt.tmod 2 ≠ ((f % 2 : Nat) : Int) then none
  else some f

/-- `element_get_first_descendant_face`, `t8_standalone_implementation.hxx:868`. -/
def firstDescendantFace (M : Nat) (e : Elem d) (f l : Nat) : Elem d :=
  ⟨fun i => if f % 2 = 1 ∧ i.val = f / 2 then e.coords i + (getLen M e.level - getLen M l)
    else e.coords i, l⟩

/-- `element_get_last_descendant_face`, `t8_standalone_implementation.hxx:903`. -/
def lastDescendantFace (M : Nat) (e : Elem d) (f l : Nat) : Elem d :=
  ⟨fun i => e.coords i +
    BitVec.ofNat 32 (if i.val = f / 2 then f % 2 else 1) * (getLen M e.level - getLen M l), l⟩

/-- `element_is_root_boundary`, `t8_standalone_implementation.hxx:934`. -/
def isRootBoundary (M : Nat) (e : Elem d) (f : Nat) (hf : f / 2 < d) : Bool :=
  if f % 2 = 1 then decide (e.coords ⟨f / 2, hf⟩ = rootLen d M - getLen M e.level)
  else decide (e.coords ⟨f / 2, hf⟩ = 0)

/-- `element_get_tree_face`, `t8_standalone_implementation.hxx:993`. -/
def treeFace (f : Nat) : Nat := f

/-- `element_is_inside_root`, `t8_standalone_implementation.hxx:1890`. -/
def isInsideRoot (M : Nat) (e : Elem d) : Bool :=
  (List.finRange d).all (fun i => (ancestor M e 0).coords i == 0)

/-- The neighbor computed by `element_get_face_neighbor_inside`, `t8_standalone_implementation.hxx:1016`. -/
def faceNeighbor (M : Nat) (e : Elem d) (f : Nat) : Elem d :=
  ⟨fun i => if i.val = f / 2 then
      (if f % 2 = 1 then e.coords i + getLen M e.level else e.coords i - getLen M e.level)
    else e.coords i, e.level⟩

/-- `element_get_face_neighbor_inside`, `t8_standalone_implementation.hxx:1016`: the neighbor and its face
number if it is inside of the tree, `none` if the return value is 0. -/
def faceNeighborInside (M : Nat) (e : Elem d) (f : Nat) : Option (Elem d × Nat) :=
  if isInsideRoot M (faceNeighbor M e f) then some (faceNeighbor M e f, f ^^^ 1) else none

/-- `get_facedim`, `t8_standalone_implementation.hxx:2137`; `none` is `-1`. -/
def faceDim (idim rootFace : Nat) : Option Nat :=
  if idim = rootFace / 2 then none
  else if idim > rootFace / 2 then some (idim - 1)
  else some idim

/-- `element_get_boundary_face`, `t8_standalone_implementation.hxx:1130` with `compute_boundary_face`, line
2012: an element of dimension `d + 1` and maximum level `M`, its boundary of dimension `d` and maximum level
`M'`. Each coordinate that is not normal to the face is written to the face. -/
def boundaryFace {d : Nat} (M M' : Nat) (e : Elem (d + 1)) (f : Nat) : Elem d :=
  ⟨(List.finRange (d + 1)).foldl (fun c i =>
      match faceDim i.val (treeFace f) with
      | none => c
      | some j => fun k => if k.val = j then e.coords i <<< (M' - M) else c k) (fun _ => 0), e.level⟩

/-- `element_extrude_face`, `t8_standalone_implementation.hxx:1091` with `extrude_face`, line 2065. Returns the
element and its face number. -/
def extrudeFace {d : Nat} (M M' : Nat) (b : Elem d) (rootFace : Nat) : Elem (d + 1) × Nat :=
  (⟨fun i =>
      match faceDim i.val rootFace with
      | some j => if h : j < d then (b.coords ⟨j, h⟩).sshiftRight (M' - M) else 0
      | none => if rootFace % 2 = 1 then rootLen (d + 1) M - getLen M b.level else 0, b.level⟩, rootFace)

/-- `element_transform_face` for vertices, `t8_standalone_implementation.hxx:2183`: the content of `elem2`
afterwards, given `elem1` and the content of `elem2` before. The function body is empty. -/
def transformFaceVertex (_elem1 elem2 : Elem 0) : Elem 0 := elem2

/-- `element_transform_face` for lines, `t8_standalone_implementation.hxx:2214`. -/
def transformFaceLine (e : Elem 1) (orientation : Nat) : Elem 1 :=
  if orientation ≠ 0 then
    ⟨fun i => BitVec.twoPow 32 30 - BitVec.twoPow 32 (30 - e.level) - e.coords i, e.level⟩
  else e

/-- `element_transform_face` for quads, `t8_standalone_implementation.hxx:2255`. `none` is the abort in the
`default` case. -/
def transformFaceQuad (e : Elem 2) (orientation : Nat) (sign isSmaller : Bool) : Option (Elem 2) :=
  let x := if sign then e.coords 1 else e.coords 0
  let y := if sign then e.coords 0 else e.coords 1
  let o := if !isSmaller ∧ (orientation = 1 ∨ orientation = 2) ∧ !sign then 3 - orientation else orientation
  let R := rootLen 2 30
  let h := getLen 30 e.level
  match o with
  | 0 => some ⟨fun i => if i = 0 then x else y, e.level⟩
  | 1 => some ⟨fun i => if i = 0 then R - y - h else x, e.level⟩
  | 2 => some ⟨fun i => if i = 0 then y else R - x - h, e.level⟩
  | 3 => some ⟨fun i => if i = 0 then R - x - h else R - y - h, e.level⟩
  | _ => none

/-! ### Message buffers -/

/-- A packed message as the sequence of the values that `MPI_Pack` appends: `MPI_INT` and `MPI_INT8_T`. -/
inductive Word
  | int (v : BitVec 32)
  | int8 (v : Nat)
  deriving DecidableEq

/-- `element_MPI_Pack` for one element, `t8_standalone_implementation.hxx:1622-1628`. -/
def packOne (e : Elem d) : List Word := (List.finRange d).map (fun i => Word.int (e.coords i)) ++ [Word.int8 e.level]

/-- `element_MPI_Pack`, `t8_standalone_implementation.hxx:1615`. -/
def pack (es : List (Elem d)) : List Word := es.flatMap packOne

/-- `element_MPI_Pack_size`, `t8_standalone_implementation.hxx:1638`: number of `MPI_INT` and of `MPI_INT8_T`
values that the bound provides for. -/
def packSize (d count : Nat) : Nat × Nat := (count * d, count)

/-- `MPI_Unpack` of one `MPI_INT`: the value and the rest of the buffer. -/
def unpackInt : List Word → Option (BitVec 32 × List Word)
  | Word.int v :: r => some (v, r)
  | _ => none

/-- `MPI_Unpack` of one `MPI_INT8_T`. -/
def unpackInt8 : List Word → Option (Nat × List Word)
  | Word.int8 v :: r => some (v, r)
  | _ => none

/-- `element_MPI_Unpack` for one element, `t8_standalone_implementation.hxx:1672-1680`. -/
def unpackOne (d : Nat) (buf : List Word) : Option (Elem d × List Word) := do
  let (c, buf) ← (List.finRange d).foldlM (fun (s : (Fin d → BitVec 32) × List Word) i => do
    let (v, r) ← unpackInt s.2
    some (fun k => if k = i then v else s.1 k, r)) (fun _ => 0, buf)
  let (l, buf) ← unpackInt8 buf
  some (⟨c, l⟩, buf)

/-- `element_MPI_Unpack`, `t8_standalone_implementation.hxx:1666`. -/
def unpack (d : Nat) : Nat → List Word → Option (List (Elem d) × List Word)
  | 0, buf => some ([], buf)
  | n + 1, buf => do
    let (e, buf) ← unpackOne d buf
    let (es, buf) ← unpack d n buf
    some (e :: es, buf)

end T8.Standalone
