/-
Model of the default scheme for pyramids, whose refinement consists of pyramids and tetrahedra:
`src/t8_schemes/t8_default/t8_default_pyramid/t8_dpyramid.h`, `t8_dpyramid_bits.c`, `t8_dpyramid_connectivity.c`,
`t8_default_pyramid.cxx` (line numbers without a file name refer to `t8_dpyramid_bits.c`).

An element is stored as a tetrahedron (`t8_dtet_t`, see Model/Simplex) with the types 0 to 7 and the level where its
ancestors change from pyramids to tetrahedra. Level and type are natural numbers, as for tetrahedra. Entries -1 of the
tables, which mean that there is no such element, are written as 255; the theorems show that the functions do not read
them for valid elements. `T8_ASSERT`s that only check the stated preconditions are not part of the functions.
-/
import Verif.Model.Simplex

namespace T8.Pyramid
open T8.Standalone (Word unpackInt8 activeBits)
open T8.Simplex (look)

/-- `T8_DPYRAMID_MAXLEVEL`, `t8_dpyramid.h:25`. -/
def maxLevel : Nat := 21

/-- `t8_dpyramid_t`, `t8_dpyramid.h:66`: coordinates, level and type, and `switch_shape_at_level`. -/
structure Elem where
  tet : Simplex.Elem 3
  switch : Int

instance : DecidableEq Elem := fun a b =>
  if h : a.tet = b.tet ∧ a.switch = b.switch then isTrue (by cases a; cases b; simp_all)
  else isFalse (by rintro rfl; exact h ⟨rfl, rfl⟩)

@[reducible] def Elem.level (p : Elem) : Nat := p.tet.level
@[reducible] def Elem.type (p : Elem) : Nat := p.tet.type

/-- `t8_dpyramid_parenttype_Iloc_to_type`, `t8_dpyramid_connectivity.c:29`. -/
def parenttypeIlocToType : List (List Nat) :=
  [[0, 0, 4, 5, 0, 1, 2, 0, 255, 255], [1, 1, 2, 3, 0, 1, 5, 1, 255, 255], [2, 0, 1, 2, 2, 3, 4, 2, 255, 255],
    [3, 3, 4, 5, 1, 2, 3, 3, 255, 255], [4, 2, 3, 4, 0, 4, 5, 4, 255, 255], [5, 0, 1, 5, 3, 4, 5, 5, 255, 255],
    [6, 3, 6, 0, 6, 0, 3, 6, 7, 6], [7, 0, 3, 6, 7, 3, 7, 0, 7, 7]]

/-- `t8_dpyramid_parenttype_Iloc_to_cid`, `t8_dpyramid_connectivity.c:41`. -/
def parenttypeIlocToCid : List (List Nat) :=
  [[0, 1, 1, 1, 5, 5, 5, 7, 255, 255], [0, 1, 1, 1, 3, 3, 3, 7, 255, 255], [0, 2, 2, 2, 3, 3, 3, 7, 255, 255],
    [0, 2, 2, 2, 6, 6, 6, 7, 255, 255], [0, 4, 4, 4, 6, 6, 6, 7, 255, 255], [0, 4, 4, 4, 5, 5, 5, 7, 255, 255],
    [0, 1, 1, 2, 2, 3, 3, 3, 3, 7], [0, 4, 4, 4, 4, 5, 5, 6, 6, 7]]

/-- `t8_dpyramid_type_cid_to_Iloc`, `t8_dpyramid_connectivity.c:53`. -/
def typeCidToIloc : List (List Nat) :=
  [[0, 1, 3, 5, 1, 4, 7, 7], [0, 1, 2, 5, 2, 5, 4, 7], [0, 2, 3, 4, 1, 6, 5, 7], [0, 1, 1, 6, 2, 5, 6, 7],
    [0, 2, 2, 6, 3, 5, 5, 7], [0, 3, 3, 6, 3, 6, 6, 7], [0, 2, 4, 7, 3, 255, 255, 9], [0, 255, 255, 8, 4, 6, 8, 9]]

/-- `t8_dpyramid_cid_type_to_parenttype`, `t8_dpyramid_connectivity.c:65`. -/
def cidTypeToParenttype : List (List Nat) :=
  [[0, 1, 2, 3, 4, 5, 6, 7], [0, 1, 1, 1, 0, 0, 6, 255], [2, 2, 2, 3, 3, 3, 6, 255], [1, 1, 2, 2, 2, 1, 6, 6],
    [5, 5, 4, 4, 4, 5, 7, 7], [0, 0, 0, 5, 5, 5, 255, 7], [4, 3, 3, 3, 4, 4, 255, 7], [0, 1, 2, 3, 4, 5, 6, 7]]

/-- `t8_dpyramid_type_cid_to_parenttype`, `t8_dpyramid_connectivity.c:81`. -/
def typeCidToParenttype : List (List Nat) := [[6, 6, 6, 6, 7, 255, 255, 6], [7, 255, 255, 6, 7, 7, 7, 7]]

/-- `t8_dpyramid_parenttype_iloc_pyra_w_lower_id`, `t8_dpyramid_connectivity.c:97`. -/
def pyraWithLowerId : List (List Nat) := [[0, 1, 1, 2, 2, 3, 3, 3, 4, 5], [0, 1, 1, 1, 2, 3, 3, 4, 4, 5]]

/-- `T8_DPYRAMID_LEN (l)`, `t8_dpyramid.h:31`. -/
def len (l : Nat) : BitVec 32 := BitVec.twoPow 32 (maxLevel - l)

/-- `t8_dpyramid_shape`, line 1441: is the shape a pyramid, not a tetrahedron? -/
def isPyra (p : Elem) : Bool := 6 ≤ p.type

/-- `set_to_root`, `t8_default_pyramid.cxx:449`. -/
def root : Elem := ⟨⟨fun _ => 0, 0, 6⟩, -1⟩

/-- `compute_cubeid`, line 34. -/
def computeCubeid (p : Elem) (level : Nat) : Nat :=
  let h := len level
  if level = 0 then 0
  else (((0 ||| (if p.tet.x 0 &&& h ≠ 0 then 1 else 0)) ||| (if p.tet.x 1 &&& h ≠ 0 then 2 else 0)) |||
    (if p.tet.x 2 &&& h ≠ 0 then 4 else 0))

/-- The loop of `compute_type_same_shape_ext`, lines 80-83, from `i` down to `level + 1`. -/
def typeLoop (p : Elem) (level : Nat) : Nat → Nat → Nat
  | 0, type => type
  | i + 1, type =>
    if level < i + 1 then typeLoop p level i (look cidTypeToParenttype (computeCubeid p (i + 1)) type) else type

/-- `compute_type_same_shape_ext`, line 64. -/
def typeSameShapeExt (p : Elem) (level knownType knownLevel : Nat) : Nat :=
  if level = knownLevel then knownType
  else if level = 0 then 6
  else typeLoop p level knownLevel knownType

/-- `compute_type_same_shape`, line 96. -/
def typeSameShape (p : Elem) (level : Nat) : Nat := typeSameShapeExt p level p.type p.level

/-- `t8_dpyramid_cut_coordinates`, line 108. -/
def cutCoordinates (p : Elem) (shift : Nat) : Elem :=
  { p with tet := { p.tet with x := fun i => (p.tet.x i).sshiftRight shift <<< shift } }

/-- `t8_dpyramid_is_inside_pyra`, line 124, for the candidate with the anchor `check` and level `checkLevel`. The sums
of coordinates are integers here: they stay below 2^22. -/
def isInsidePyra (tet : Simplex.Elem 3) (check : Fin 3 → BitVec 32) (checkLevel : Nat) : Nat :=
  let length := (len checkLevel).toInt
  let x := (tet.x 0).toInt
  let y := (tet.x 1).toInt
  let z := (tet.x 2).toInt
  let cx := (check 0).toInt
  let cy := (check 1).toInt
  let cz := (check 2).toInt
  let diff := z - cz
  if (cx + diff ≤ x ∧ x < cx + length) ∧ (cy + diff ≤ y ∧ y < cy + length) ∧ (cz ≤ z ∧ z < cz + length) then
    if (cx + diff = x ∧ (tet.type = 3 ∨ tet.type = 1)) ∨ (cy + diff = y ∧ (tet.type = 0 ∨ tet.type = 2)) then 0
    else 6
  else if (cx ≤ x ∧ x ≤ cx + diff) ∧ (cy ≤ y ∧ y ≤ cy + diff) ∧ (cz ≤ z ∧ z < cz + length) then
    if (cx + diff = x ∧ (tet.type = 0 ∨ tet.type = 2)) ∨ (cy + diff = y ∧ (tet.type = 3 ∨ tet.type = 1)) then 0
    else 7
  else 0

/-- The loop of `t8_dpyramid_is_inside_tet`, lines 186-200: `n` more steps, beginning with level `i`. -/
def isInsideTetLoop (tet : Simplex.Elem 3) : Nat → Nat → (Fin 3 → BitVec 32) → Nat
  | 0, _, _ => 0
  | n + 1, i, pyra =>
    let coordAtLevel : BitVec 32 := BitVec.twoPow 32 (maxLevel - i)
    let pyra : Fin 3 → BitVec 32 := fun k => pyra k ||| (tet.x k &&& coordAtLevel)
    if isInsidePyra tet pyra i = 0 then i else isInsideTetLoop tet n (i + 1) pyra

/-- `t8_dpyramid_is_inside_tet`, line 174; it is only called without an ancestor to fill. -/
def isInsideTet (tet : Simplex.Elem 3) (level : Nat) : Nat := isInsideTetLoop tet (level - 1) 1 (fun _ => 0)

/-- The loop of `t8_dpyramid_compute_switch_shape_at_level`, lines 220-223: level and type where the type is 0 or 3.
`none`: there is no such level, and an assertion of `compute_type_same_shape_ext` fails. -/
def switchLoop (p : Elem) : Nat → Nat → Option (Nat × Nat)
  | 0, type => if type ≠ 0 ∧ type ≠ 3 then none else some (0, type)
  | l + 1, type =>
    if type ≠ 0 ∧ type ≠ 3 then switchLoop p l (typeSameShapeExt p l type (l + 1)) else some (l + 1, type)

/-- `t8_dpyramid_compute_switch_shape_at_level`, line 210. -/
def computeSwitch (p : Elem) : Option Nat := do
  let (level, typeAtLevel) ← switchLoop p p.level p.type
  let tmpTet : Simplex.Elem 3 := ⟨p.tet.x, level, typeAtLevel⟩
  let lastTetLevel := isInsideTet tmpTet level
  if lastTetLevel ≠ 0 then some lastTetLevel else some level

/-- `t8_dpyramid_set_switch_shape_at_level`, line 246. -/
def setSwitch (p : Elem) : Option Elem :=
  if isPyra p then some { p with switch := -1 } else (computeSwitch p).map (fun s => { p with switch := s })

/-- `t8_dpyramid_is_valid`, line 1746, and `element_is_valid`, `t8_default_pyramid.cxx:430`. -/
def isValid (p : Elem) : Bool :=
  let rootLen : Int := 2 ^ maxLevel
  let maxCoord : Int := 2 * rootLen - 1
  decide (p.level ≤ maxLevel) && (List.finRange 3).all (fun i => decide (-rootLen ≤ (p.tet.x i).toInt) &&
    decide ((p.tet.x i).toInt ≤ maxCoord)) && decide (p.type < 8) && (p.level != 0 || p.type == 6) &&
    (if isPyra p then decide (p.switch < 0)
     else decide (p.switch > 0) && decide (p.switch ≤ maxLevel) &&
      (match computeSwitch p with
       | some s => p.switch == (s : Int)
       | none => false))

/-- `t8_dpyramid_equal`, line 386. -/
def isEqual (p q : Elem) : Bool := Simplex.isEqual .tet p.tet q.tet && p.switch == q.switch

/-- `t8_dpyramid_num_children`, line 1081. -/
def numChildren (p : Elem) : Nat := if isPyra p then 10 else 8

/-- `t8_dpyramid_num_siblings`, line 1093. -/
def numSiblings (p : Elem) : Nat := if isPyra p ∨ p.switch = p.level then 10 else 8

/-- `t8_dpyramid_child_id`, line 1260. -/
def childId (p : Elem) : Nat :=
  if isPyra p ∨ p.switch = p.level then
    if p.level = 0 then 0 else look typeCidToIloc p.type (computeCubeid p p.level)
  else Simplex.childId .tet p.tet

/-- `t8_dpyramid_child`, line 1281. Precondition `level < MAXLEVEL`. -/
def child (p : Elem) (childid : Nat) : Elem :=
  if isPyra p then
    let cubeId := look parenttypeIlocToCid p.type childid
    let length := len (p.level + 1)
    let x : Fin 3 → BitVec 32 := fun i => p.tet.x i + (if cubeId &&& (1 <<< i.val) ≠ 0 then length else 0)
    let type := look parenttypeIlocToType p.type childid
    ⟨⟨x, p.level + 1, type⟩, if 6 ≤ type then -1 else ((p.level + 1 : Nat) : Int)⟩
  else ⟨Simplex.child .tet p.tet childid, p.switch⟩

/-- `t8_dpyramid_children`, line 1312. -/
def children (p : Elem) : List Elem := (List.range (numChildren p)).map (child p)

/-- `t8_dpyramid_tetparent_type`, line 694. The coordinate is not negative. -/
def tetparentType (p : Elem) : Nat :=
  if ((p.tet.x 2).sshiftRight (maxLevel - p.level)).toInt % 2 = 0 then 6 else 7

/-- `t8_dpyramid_parent`, line 1404. Precondition `0 < level`. -/
def parent (p : Elem) : Elem :=
  let length := len p.level
  let x : Fin 3 → BitVec 32 := fun i => p.tet.x i &&& ~~~length
  if isPyra p then
    ⟨⟨x, p.level - 1, look typeCidToParenttype (p.type - 6) (computeCubeid p p.level)⟩, -1⟩
  else if p.switch = p.level then ⟨⟨x, p.level - 1, tetparentType p⟩, -1⟩
  else ⟨Simplex.parent .tet p.tet, p.switch⟩

/-- `t8_dpyramid_ancestor`, line 1598, with the function `typeAt` in the place of `t8_dpyramid_type_at_level`. -/
def ancestorWith (typeAt : Elem → Nat → Nat) (p : Elem) (level : Nat) : Elem :=
  if p.level = level then p
  else if level + 1 = p.level then parent p
  else
    let a := cutCoordinates p (maxLevel - level)
    let type := typeAt p level
    ⟨⟨a.tet.x, level, type⟩, if 6 ≤ type then -1 else p.switch⟩

/-- `t8_dpyramid_type_at_level`, line 514. The two functions call each other; the call of `t8_dpyramid_ancestor` here
asks for the ancestor of level `switch_shape_at_level`, where `t8_dpyramid_type_at_level` uses the type of the
element or `compute_type_same_shape`. -/
def typeAtLevel (p : Elem) (level : Nat) : Nat :=
  if p.level ≤ level then p.type
  else if isPyra p ∨ p.switch ≤ (level : Int) then typeSameShape p level
  else
    let a := ancestorWith (fun p l => if p.level ≤ l then p.type else typeSameShape p l) p p.switch.toNat
    let a := parent a
    if level = a.level then a.type else typeSameShape a level

/-- `t8_dpyramid_ancestor`, line 1598. -/
def ancestor (p : Elem) (level : Nat) : Elem := ancestorWith typeAtLevel p level

/-- `t8_dpyramid_ancestor_id`, line 257. -/
def ancestorId (p : Elem) (level : Nat) : Nat := childId (ancestor p level)

/-- `t8_dpyramid_is_family`, line 266, for a tetrahedron: `t8_dtet_is_familypv` of the first eight elements. `none`:
the array is too short. -/
def isFamilyTet (fam : List Elem) : Option Bool := Simplex.isFamily .tet (fam.map Elem.tet)

/-- `t8_dpyramid_is_family`, line 266, for a pyramid `f0` of positive level. -/
def isFamilyPyra (f0 f1 f2 f3 f4 f5 f6 f7 f8 f9 : Elem) : Bool :=
  let level := f0.level
  let typeOfFirst := f0.type
  if [f1, f2, f3, f4, f5, f6, f7, f8, f9].zipIdx.any (fun (f, i) =>
      decide (f.level ≠ level) || decide (look parenttypeIlocToType typeOfFirst (i + 1) ≠ f.type)) then false
  else
    let inc := len level
    let x (f : Elem) := f.tet.x 0
    let y (f : Elem) := f.tet.x 1
    let z (f : Elem) := f.tet.x 2
    let xInc := x f0 + inc
    let yInc := y f0 + inc
    if typeOfFirst = 6 then
      decide (z f0 = z f1 ∧ z f0 = z f2 ∧ z f0 = z f3 ∧ z f0 = z f4 ∧ z f0 = z f5 ∧ z f0 = z f6 ∧
        z f0 = z f7 ∧ z f0 = z f8 ∧ z f0 = z f9 - inc ∧ x f0 = x f3 ∧ x f0 = x f4 ∧ xInc = x f1 ∧ xInc = x f2 ∧
        xInc = x f5 ∧ xInc = x f6 ∧ xInc = x f7 ∧ xInc = x f8 ∧ xInc = x f9 ∧ y f0 = y f1 ∧ y f0 = y f2 ∧
        yInc = y f3 ∧ yInc = y f4 ∧ yInc = y f5 ∧ yInc = y f6 ∧ yInc = y f7 ∧ yInc = y f8 ∧ yInc = y f9)
    else
      decide (z f1 = z f0 + inc ∧ z f1 = z f2 ∧ z f1 = z f3 ∧ z f1 = z f4 ∧ z f1 = z f5 ∧ z f1 = z f6 ∧
        z f1 = z f7 ∧ z f1 = z f8 ∧ z f1 = z f9 ∧ x f0 = x f1 ∧ x f0 = x f2 ∧ x f0 = x f3 ∧ x f0 = x f4 ∧
        x f0 = x f7 ∧ x f0 = x f8 ∧ xInc = x f5 ∧ xInc = x f6 ∧ xInc = x f9 ∧ y f0 = y f1 ∧ y f0 = y f2 ∧
        y f0 = y f3 ∧ y f0 = y f4 ∧ y f0 = y f5 ∧ y f0 = y f6 ∧ yInc = y f7 ∧ yInc = y f8 ∧ yInc = y f9)

/-- `t8_dpyramid_is_family`, line 266. `none`: the array is too short. -/
def isFamily (fam : List Elem) : Option Bool := do
  let f0 ← fam[0]?
  if !isPyra f0 then isFamilyTet fam
  else if f0.level = 0 then some false
  else do
    let f1 ← fam[1]?
    let f2 ← fam[2]?
    let f3 ← fam[3]?
    let f4 ← fam[4]?
    let f5 ← fam[5]?
    let f6 ← fam[6]?
    let f7 ← fam[7]?
    let f8 ← fam[8]?
    let f9 ← fam[9]?
    some (isFamilyPyra f0 f1 f2 f3 f4 f5 f6 f7 f8 f9)

/-- The loop of `t8_dpyramid_update_index`, lines 444-451, at most `n` more steps; `k` is the next local id. The
result is the local id and the remaining id. `none`: a read outside of the table. -/
def updateLoop (id : BitVec 64) (type : Nat) (pyra tet : BitVec 64) : Nat → BitVec 64 → Nat → Option (Nat × BitVec 64)
  | 0, _, _ => none
  | n + 1, test, k =>
    let shift := if look parenttypeIlocToType type k ≥ 6 then pyra else tet
    let test := test + shift
    if test ≤ id then updateLoop id type pyra tet n test (k + 1)
    else some (k, id - (test - shift))

/-- `t8_dpyramid_update_index`, line 437. -/
def updateIndex (id : BitVec 64) (type : Nat) (pyra tet : BitVec 64) : Option (Nat × BitVec 64) :=
  updateLoop id type pyra tet 10 0 0

/-- The loop of `t8_dtet_init_linear_id_with_level`, `t8_dtri_bits.c:1514-1529`: `n` more steps, the next one is for
level `endLevel + 1 - n`. -/
def initTetLoop (id : BitVec 64) (endLevel : Nat) : Nat → (Fin 3 → BitVec 32) → Nat → (Fin 3 → BitVec 32) × Nat
  | 0, x, type => (x, type)
  | n + 1, x, type =>
    let i := endLevel - n
    let offsetCoords := Simplex.Cls.tet.maxLevel - i
    let offsetIndex := endLevel - i
    let localIndex := ((id >>> (3 * offsetIndex)) &&& 7).toNat
    let cid := look (Simplex.parenttypeIlocToCid .tet) type localIndex
    initTetLoop id endLevel n
      (fun k => x k ||| (if cid &&& (1 <<< k.val) ≠ 0 then BitVec.twoPow 32 offsetCoords else 0))
      (look (Simplex.parenttypeIlocToType .tet) type localIndex)

/-- `t8_dtet_init_linear_id_with_level`, `t8_dtri_bits.c:1497`. -/
def initTetWithLevel (x : Fin 3 → BitVec 32) (id : BitVec 64) (startLevel endLevel parenttype : Nat) :
    Option (Simplex.Elem 3) := do
  assertO (id ≤ (1 : BitVec 64) <<< (3 * endLevel))
  let (x, type) := initTetLoop id endLevel (endLevel + 1 - startLevel) x parenttype
  some ⟨x, endLevel, type⟩

/-- The loop of `t8_dpyramid_init_linear_id`, lines 474-501, and the end of the function: `n` more steps, the next one
is for level `level + 1 - n`. -/
def initLoop (level : Nat) : Nat → (Fin 3 → BitVec 32) → Nat → BitVec 64 → BitVec 64 → BitVec 64 → Option Elem
  | 0, x, type, id, _, _ => do
    assertO (id = 0)
    some ⟨⟨x, level, type⟩, if 6 ≤ type then -1 else (level : Int)⟩
  | n + 1, x, type, id, pSum1, pSum2 => do
    let i := level - n
    let offsetExpo := maxLevel - i
    let pSum1 := pSum1 >>> 3
    let pSum2 := pSum2 / 6
    if type = 0 ∨ type = 3 then
      let tet ← initTetWithLevel x id i level type
      some ⟨tet, ((i - 1 : Nat) : Int)⟩
    else
      let (localIndex, id) ← updateIndex id type (2 * pSum1 - pSum2) pSum1
      let cubeId := look parenttypeIlocToCid type localIndex
      let bit : BitVec 32 := BitVec.twoPow 32 offsetExpo
      let x : Fin 3 → BitVec 32 := fun k => x k |||
        (if k.val = 0 then (if cubeId % 2 = 1 then bit else 0)
         else if k.val = 1 then (if cubeId = 2 ∨ cubeId = 3 ∨ cubeId = 6 ∨ cubeId = 7 then bit else 0)
         else (if cubeId > 3 then bit else 0))
      initLoop level n x (look parenttypeIlocToType type localIndex) id pSum1 pSum2

/-- `t8_dpyramid_init_linear_id`, line 461, called by `element_set_linear_id`, `t8_default_pyramid.cxx:252`. -/
def initLinearId (level : Nat) (id : BitVec 64) : Option Elem := do
  let pSum1 : BitVec 64 := (1 : BitVec 64) <<< (3 * level)
  let pSum2 : BitVec 64 := BitVec.ofNat 64 (6 ^ level)
  assertO (id ≤ 2 * pSum1 - pSum2)
  initLoop level level (fun _ => 0) 6 id pSum1 pSum2

/-- The loop of `t8_dpyramid_linear_id`, lines 553-585: `i` more steps. -/
def linearIdLoop : Nat → Elem → BitVec 64 → BitVec 64 → BitVec 64 → BitVec 64
  | 0, _, id, _, _ => id
  | i + 1, copy, id, sum1, sum2 =>
    let pyraShift := (sum1 <<< 1) - sum2
    let par := parent copy
    let localId := childId copy
    let numPyra := if isPyra par then look pyraWithLowerId (par.type - 6) localId else 0
    let numTet := localId - numPyra
    linearIdLoop i par (id + (BitVec.ofNat 64 numPyra * pyraShift + BitVec.ofNat 64 numTet * sum1)) (sum1 <<< 3) (sum2 * 6)

/-- `t8_dpyramid_linear_id`, line 542. -/
def linearId (p : Elem) (level : Nat) : BitVec 64 :=
  let copy : Elem := { p with tet := { p.tet with type := typeAtLevel p level, level := level } }
  linearIdLoop level (cutCoordinates copy (maxLevel - level)) 0 1 1

/-- `t8_dpyramid_compare`, line 393. -/
def compare (p q : Elem) : Int :=
  let maxlvl := max p.level q.level
  let id1 := linearId p maxlvl
  let id2 := linearId q maxlvl
  if id1 = id2 then
    if p.level = q.level then 0 else (p.level : Int) - q.level
  else if id1 < id2 then -1 else 1

/-- `t8_dpyramid_first_descendant`, line 917. -/
def firstDescendant (p : Elem) (level : Nat) : Option Elem :=
  if isPyra p then some ⟨{ p.tet with level := level }, -1⟩
  else initLinearId level (linearId p level)

/-- `t8_dpyramid_last_descendant`, line 1007. -/
def lastDescendant (p : Elem) (level : Nat) : Option Elem :=
  if isPyra p then
    let coordOffset := len p.level - len level
    some ⟨⟨fun i => p.tet.x i ||| coordOffset, level, p.type⟩, p.switch⟩
  else
    let tId := linearId p level
    let exponent := level - p.level
    initLinearId level (((1 : BitVec 64) <<< (3 * exponent)) - 1 + tId)

/-- The beginning of `t8_dpyramid_successor_recursion`, lines 1457-1461: the copy with the level set. -/
def setLevel (p : Elem) (level : Nat) : Elem :=
  ⟨{ p.tet with level := level }, if (level : Int) < p.switch then -1 else p.switch⟩

/-- The rest of `t8_dpyramid_successor_recursion`, lines 1462-1481, where `succ` is the copy of `elem` and `recurse` the
recursive call. -/
def successorBody (recurse : Elem → Option Elem) (elem succ : Elem) (level : Nat) : Option Elem :=
  let cid := childId elem
  if cid = numSiblings elem - 1 then do
    let shift := maxLevel - level + 1
    let s ← recurse succ
    some (cutCoordinates { s with tet := { s.tet with level := level } } shift)
  else
    let s := child (parent succ) (cid + 1)
    some { s with tet := { s.tet with level := level } }

/-- `t8_dpyramid_successor_recursion`, line 1454, where `elem` and `succ` are the same object, as in the recursive
call. `none`: the assertion `1 <= level` fails. -/
def successorRec : Nat → Elem → Option Elem
  | 0, _ => none
  | l + 1, s => successorBody (successorRec l) (setLevel s (l + 1)) (setLevel s (l + 1)) (l + 1)

/-- `t8_dpyramid_successor`, line 1485, called by `element_construct_successor`, `t8_default_pyramid.cxx:367`, with
the level of the element. -/
def successor (p : Elem) : Nat → Option Elem
  | 0 => none
  | l + 1 => successorBody (successorRec l) p (setLevel p (l + 1)) (l + 1)

/-- `maxclor` of `t8_dpyramid_nearest_common_ancestor`, lines 1658-1661 and 1697-1700, and the level of the cube,
lines 1666-1667 and 1708-1709. `none`: the assertion on the level fails. -/
def cubeLevel (p q : Elem) : Option Nat := do
  let maxclor := p.tet.x 0 ^^^ q.tet.x 0
  let maxclor := maxclor ||| (p.tet.x 1 ^^^ q.tet.x 1)
  let maxclor := maxclor ||| (p.tet.x 2 ^^^ q.tet.x 2)
  let level := activeBits maxclor
  assertO (level ≤ maxLevel)
  some (min (maxLevel - level) (min p.level q.level))

/-- The loop of `t8_dpyramid_nearest_common_ancestor`, lines 1674-1678, for two pyramids: level and type. -/
def ncaPyraLoop (p q : Elem) : Nat → Nat → Nat → Option (Nat × Nat)
  | 0, t1, t2 => if t1 = t2 then some (0, t1) else none
  | r + 1, t1, t2 =>
    if t1 = t2 then some (r + 1, t1)
    else ncaPyraLoop p q r (typeSameShapeExt p r t1 (r + 1)) (typeSameShapeExt q r t2 (r + 1))

/-- The loop of `t8_dpyramid_nearest_common_ancestor`, lines 1724-1729, for two tetrahedra: level and types. -/
def ncaTetLoop (p q : Elem) : Nat → Nat → Nat → Nat × Nat × Nat
  | 0, t1, t2 => (0, t1, t2)
  | r + 1, t1, t2 =>
    if t1 ≠ t2 ∧ p.switch ≤ ((r + 1 : Nat) : Int) ∧ q.switch ≤ ((r + 1 : Nat) : Int) then
      ncaTetLoop p q r (typeSameShapeExt p r t1 (r + 1)) (typeSameShapeExt q r t2 (r + 1))
    else (r + 1, t1, t2)

/-- `t8_dpyramid_nearest_common_ancestor`, line 1624. The function calls itself for ancestors of its arguments; `fuel`
is the number of nested calls. -/
def ncaRec : Nat → Elem → Elem → Option Elem
  | 0, _, _ => none
  | fuel + 1, p, q =>
    if isPyra p ∧ ¬ isPyra q then ncaRec fuel p (ancestor q (q.switch - 1).toNat)
    else if ¬ isPyra p ∧ isPyra q then ncaRec fuel (ancestor p (p.switch - 1).toNat) q
    else if isPyra p ∧ isPyra q then do
      let cube ← cubeLevel p q
      let (realLevel, type) ← ncaPyraLoop p q cube (typeSameShape p cube) (typeSameShape q cube)
      let nca := cutCoordinates { p with tet := { p.tet with level := realLevel } } (maxLevel - realLevel)
      some { nca with tet := { nca.tet with type := type } }
    else do
      let cube ← cubeLevel p q
      let (realLevel, t1, t2) := ncaTetLoop p q cube (ancestor p cube).type (ancestor q cube).type
      if (realLevel : Int) < p.switch ∨ (realLevel : Int) < q.switch then
        ncaRec fuel (ancestor p (p.switch - 1).toNat) (ancestor q (q.switch - 1).toNat)
      else do
        assertO (t1 = t2)
        let a ← Simplex.ancestor .tet p.tet realLevel
        some ⟨a, p.switch⟩

/-- `element_get_nca`, `t8_default_pyramid.cxx:394`. -/
def nca (p q : Elem) : Option Elem := ncaRec 2 p q

/-- `t8_dpyramid_compute_integer_coords`, line 1499. -/
def integerCoords (p : Elem) (vertex : Nat) : Fin 3 → BitVec 32 :=
  if isPyra p then
    let length := len p.level
    let top (x : Fin 3 → BitVec 32) := if p.type = 7 then Simplex.addAt x 2 length else x
    if vertex = 0 then top p.tet.x
    else if vertex = 1 then top (Simplex.addAt p.tet.x 0 length)
    else if vertex = 2 then top (Simplex.addAt p.tet.x 1 length)
    else if vertex = 3 then top (Simplex.addAt (Simplex.addAt p.tet.x 0 length) 1 length)
    else if vertex = 4 then
      if p.type = 6 then Simplex.addAt (Simplex.addAt (Simplex.addAt p.tet.x 0 length) 1 length) 2 length else p.tet.x
    else p.tet.x
  else Simplex.integerCoords .tet p.tet vertex

/-- `element_get_anchor`, `t8_default_pyramid.cxx:375`. -/
def anchor (p : Elem) : Fin 3 → BitVec 32 := p.tet.x

/-- `element_is_refinable`, `t8_default_common.hxx:295`. -/
def isRefinable (p : Elem) : Bool := p.level < maxLevel

/-- `element_is_ancestor`, `t8_default_common.hxx:202`. -/
def isAncestor (p q : Elem) : Bool := Default.isAncestor Elem.level linearId p q

/-- `count_leaves_from_root`, `t8_default_pyramid.cxx:114`; a `t8_gloidx_t`, its value is `.toInt`. -/
def countLeavesFromRoot (level : Nat) : BitVec 64 := 2 * BitVec.ofNat 64 (8 ^ level) - BitVec.ofNat 64 (6 ^ level)

/-- `element_count_leaves`, `t8_default_pyramid.cxx:307`. -/
def countLeaves (p : Elem) (level : Nat) : BitVec 64 :=
  if isPyra p then
    let levelDiff := level - p.level
    if p.level > level then 0 else 2 * BitVec.ofNat 64 (8 ^ levelDiff) - BitVec.ofNat 64 (6 ^ levelDiff)
  else Default.countLeavesFromLevel p.level level 3

/-- `element_MPI_Pack`, `t8_default_pyramid.cxx:461`: the tetrahedron and `switch_shape_at_level`, an `int8_t`. -/
def pack (es : List Elem) : List Word :=
  es.flatMap (fun p => Simplex.pack .tet [p.tet] ++ [Word.int8 (p.switch % 256).toNat])

/-- `element_MPI_Pack_size`, `t8_default_pyramid.cxx:476`: number of `MPI_INT` and of `MPI_INT8_T` values. -/
def packSize (count : Nat) : Nat × Nat :=
  (count * (Simplex.packSize .tet 1).1, count * ((Simplex.packSize .tet 1).2 + 1))

/-- `element_MPI_Unpack`, `t8_default_pyramid.cxx:493`. -/
def unpack : Nat → List Word → Option (List Elem × List Word)
  | 0, buf => some ([], buf)
  | n + 1, buf => do
    let (tets, buf) ← Simplex.unpack .tet 1 buf
    let tet ← tets.head?
    let (s, buf) ← unpackInt8 buf
    let (es, buf) ← unpack n buf
    some (⟨tet, if s < 128 then (s : Int) else (s : Int) - 256⟩ :: es, buf)

end T8.Pyramid
