/-
Model of the default schemes for triangles and tetrahedra:
`src/t8_schemes/t8_default/t8_default_tri/t8_dtri.h`, `t8_dtri_bits.c`, `t8_dtri_connectivity.c`,
`t8_default_tri.cxx`, and for tetrahedra `t8_default_tet/t8_dtet.h`, `t8_dtet_bits.c`, `t8_dtet_connectivity.c`,
`t8_default_tet.cxx`. The code compiles `t8_dtri_bits.c` twice, with and without `T8_DTRI_TO_DTET`
(`t8_dtri_to_dtet.h`); here the class is a parameter.

Coordinates are 32 bit integers (`BitVec 32`), linear ids are 64 bit integers with the arithmetic of the
machine. Level and type (`int8_t`) are natural numbers: they never exceed 29 and 5. `T8_ASSERT`s that only check
the stated preconditions are not part of the functions; they reappear as hypotheses of the theorems. Reads
outside of a table give 0; the theorems show that the functions do not depend on it for valid elements.
-/
import Verif.Model.DefaultCommon
import Verif.Model.Standalone

namespace T8.Simplex
open T8.Standalone (Word unpackInt unpackInt8 activeBits)

/-- The two simplex classes. -/
inductive Cls | tri | tet
  deriving DecidableEq, Repr

/-- `T8_DTRI_DIM`, `t8_dtri_connectivity.h:35`; `T8_DTET_DIM`, `t8_dtet_connectivity.h:36`. -/
@[reducible] def Cls.dim : Cls → Nat
  | tri => 2 | tet => 3

/-- `T8_DTRI_MAXLEVEL`, `t8_dtri.h:47`; `T8_DTET_MAXLEVEL`, `t8_dtet.h:48`. -/
def Cls.maxLevel : Cls → Nat
  | tri => 29 | tet => 21

/-- `T8_DTRI_NUM_TYPES`, `t8_dtri.h:56`; `T8_DTET_NUM_TYPES`, `t8_dtet.h:57`. -/
def Cls.numTypes : Cls → Nat
  | tri => 2 | tet => 6

/-- `T8_DTRI_CHILDREN`, `t8_dtri.h:35`; `T8_DTET_CHILDREN`, `t8_dtet.h:35`. -/
def Cls.numChildren : Cls → Nat
  | tri => 4 | tet => 8

/-- `t8_dtri_t`, `t8_dtri.h:68`; `t8_dtet_t`, `t8_dtet.h:70`: the coordinates of the anchor node, level and type. -/
structure Elem (d : Nat) where
  x : Fin d → BitVec 32
  level : Nat
  type : Nat

instance {d : Nat} : DecidableEq (Elem d) := fun a b =>
  if h : a.x = b.x ∧ a.level = b.level ∧ a.type = b.type then
    isTrue (by cases a; cases b; simp_all)
  else isFalse (by rintro rfl; exact h ⟨rfl, rfl, rfl⟩)

/-- Reading a table. -/
def look (t : List (List Nat)) (i j : Nat) : Nat := (t.getD i []).getD j 0

/-- `t8_dtri_cid_type_to_parenttype`, `t8_dtri_connectivity.c:26`, `t8_dtet_connectivity.c:26`. -/
def cidTypeToParenttype : Cls → List (List Nat)
  | .tri => [[0, 1], [0, 0], [1, 1], [0, 1]]
  | .tet => [[0, 1, 2, 3, 4, 5], [0, 1, 1, 1, 0, 0], [2, 2, 2, 3, 3, 3], [1, 1, 2, 2, 2, 1], [5, 5, 4, 4, 4, 5],
      [0, 0, 0, 5, 5, 5], [4, 3, 3, 3, 4, 4], [0, 1, 2, 3, 4, 5]]

/-- `t8_dtri_type_of_child`, `t8_dtri_connectivity.c:34`, `t8_dtet_connectivity.c:38`. -/
def typeOfChild : Cls → List (List Nat)
  | .tri => [[0, 0, 0, 1], [1, 1, 1, 0]]
  | .tet => [[0, 0, 0, 0, 4, 5, 2, 1], [1, 1, 1, 1, 3, 2, 5, 0], [2, 2, 2, 2, 0, 1, 4, 3], [3, 3, 3, 3, 5, 4, 1, 2],
      [4, 4, 4, 4, 2, 3, 0, 5], [5, 5, 5, 5, 1, 0, 3, 4]]

/-- `t8_dtet_type_of_child_morton`, `t8_dtri_connectivity.c:40`, `t8_dtet_connectivity.c:49`. -/
def typeOfChildMorton : Cls → List (List Nat)
  | .tri => [[0, 0, 1, 0], [1, 0, 1, 1]]
  | .tet => [[0, 0, 4, 5, 0, 1, 2, 0], [1, 1, 2, 3, 0, 1, 5, 1], [2, 0, 1, 2, 2, 3, 4, 2], [3, 3, 4, 5, 1, 2, 3, 3],
      [4, 2, 3, 4, 0, 4, 5, 4], [5, 0, 1, 5, 3, 4, 5, 5]]

/-- `t8_dtri_index_to_bey_number`, `t8_dtri_connectivity.c:46`, `t8_dtet_connectivity.c:59`. -/
def indexToBeyNumber : Cls → List (List Nat)
  | .tri => [[0, 1, 3, 2], [0, 3, 1, 2]]
  | .tet => [[0, 1, 4, 5, 2, 7, 6, 3], [0, 1, 5, 4, 7, 2, 6, 3], [0, 4, 5, 1, 2, 7, 6, 3], [0, 1, 5, 4, 6, 7, 2, 3],
      [0, 4, 5, 1, 6, 2, 7, 3], [0, 5, 4, 1, 6, 7, 2, 3]]

/-- `t8_dtri_beyid_to_vertex`, `t8_dtri_connectivity.c:50`, `t8_dtet_connectivity.c:68`. -/
def beyidToVertex : Cls → List Nat
  | .tri => [0, 1, 2, 1]
  | .tet => [0, 1, 2, 3, 1, 1, 2, 2]

/-- `t8_dtri_parenttype_beyid_to_Iloc`, `t8_dtri_connectivity.c:66`, `t8_dtet_connectivity.c:83`. -/
def parenttypeBeyidToIloc : Cls → List (List Nat)
  | .tri => [[0, 1, 3, 2], [0, 2, 3, 1]]
  | .tet => [[0, 1, 4, 7, 2, 3, 6, 5], [0, 1, 5, 7, 2, 3, 6, 4], [0, 3, 4, 7, 1, 2, 6, 5], [0, 1, 6, 7, 2, 3, 4, 5],
      [0, 3, 5, 7, 1, 2, 4, 6], [0, 3, 6, 7, 2, 1, 4, 5]]

/-- `t8_dtri_type_cid_to_Iloc`, `t8_dtri_connectivity.c:70`, `t8_dtet_connectivity.c:92`. -/
def typeCidToIloc : Cls → List (List Nat)
  | .tri => [[0, 1, 1, 3], [0, 2, 2, 3]]
  | .tet => [[0, 1, 1, 4, 1, 4, 4, 7], [0, 1, 2, 5, 2, 5, 4, 7], [0, 2, 3, 4, 1, 6, 5, 7], [0, 3, 1, 5, 2, 4, 6, 7],
      [0, 2, 2, 6, 3, 5, 5, 7], [0, 3, 3, 6, 3, 6, 6, 7]]

/-- `t8_dtri_parenttype_Iloc_to_type`, `t8_dtri_connectivity.c:74`, `t8_dtet_connectivity.c:101`. -/
def parenttypeIlocToType : Cls → List (List Nat)
  | .tri => [[0, 0, 1, 0], [1, 0, 1, 1]]
  | .tet => [[0, 0, 4, 5, 0, 1, 2, 0], [1, 1, 2, 3, 0, 1, 5, 1], [2, 0, 1, 2, 2, 3, 4, 2], [3, 3, 4, 5, 1, 2, 3, 3],
      [4, 2, 3, 4, 0, 4, 5, 4], [5, 0, 1, 5, 3, 4, 5, 5]]

/-- `t8_dtri_parenttype_Iloc_to_cid`, `t8_dtri_connectivity.c:78`, `t8_dtet_connectivity.c:110`. -/
def parenttypeIlocToCid : Cls → List (List Nat)
  | .tri => [[0, 1, 1, 3], [0, 2, 2, 3]]
  | .tet => [[0, 1, 1, 1, 5, 5, 5, 7], [0, 1, 1, 1, 3, 3, 3, 7], [0, 2, 2, 2, 3, 3, 3, 7], [0, 2, 2, 2, 6, 6, 6, 7],
      [0, 4, 4, 4, 6, 6, 6, 7], [0, 4, 4, 4, 5, 5, 5, 7]]

variable (c : Cls)

/-- `T8_DTRI_LEN (l)`, `t8_dtri.h:53`; `T8_DTET_LEN (l)`, `t8_dtet.h:54`. -/
def len (l : Nat) : BitVec 32 := BitVec.twoPow 32 (c.maxLevel - l)

/-- `T8_DTRI_ROOT_LEN`, `t8_dtri.h:50`; `T8_DTET_ROOT_LEN`, `t8_dtet.h:51`. -/
def rootLen : BitVec 32 := BitVec.twoPow 32 c.maxLevel

/-- `set_to_root`, `t8_default_tri.cxx:550`, `t8_default_tet.cxx:538`; also `t8_dtri_init_root`, `t8_dtri_bits.c:1565`. -/
def root : Elem c.dim := ⟨fun _ => 0, 0, 0⟩

/-- `compute_cubeid`, `t8_dtri_bits.c:41`. Bit `i` of the result belongs to coordinate `i`. -/
def computeCubeid (e : Elem c.dim) (level : Nat) : Nat :=
  if level = 0 then 0
  else (List.finRange c.dim).foldl
    (fun id i => id ||| (if e.x i &&& len c level ≠ 0 then 1 <<< i.val else 0)) 0

/-- The loop of `compute_type_ext`, `t8_dtri_bits.c:85-89`, from `i` down to `level + 1`. -/
def typeLoop (e : Elem c.dim) (level : Nat) : Nat → Nat → Nat
  | 0, type => type
  | i + 1, type =>
    if level < i + 1 then typeLoop e level i (look (cidTypeToParenttype c) (computeCubeid c e (i + 1)) type)
    else type

/-- `compute_type_ext`, `t8_dtri_bits.c:69`. Precondition `level ≤ knownLevel ≤ e.level`. -/
def computeTypeExt (e : Elem c.dim) (level knownType knownLevel : Nat) : Nat :=
  if level = knownLevel then knownType
  else if level = 0 then 0
  else typeLoop c e level knownLevel knownType

/-- `compute_type`, `t8_dtri_bits.c:98`. -/
def computeType (e : Elem c.dim) (level : Nat) : Nat := computeTypeExt c e level e.type e.level

/-- `t8_dtri_equal`, `t8_dtri_bits.c:114`, and `t8_dtri_is_equal`, `t8_dtri_bits.c:1247`. -/
def isEqual (e f : Elem c.dim) : Bool :=
  e.level == f.level && e.type == f.type && (List.finRange c.dim).all (fun i => e.x i == f.x i)

/-- `t8_dtri_parent`, `t8_dtri_bits.c:145`. Precondition `0 < level`. -/
def parent (e : Elem c.dim) : Elem c.dim :=
  let h := len c e.level
  let cid := computeCubeid c e e.level
  ⟨fun i => e.x i &&& ~~~h, e.level - 1, look (cidTypeToParenttype c) cid e.type⟩

/-- The type of the ancestor of a triangle from the differences of the coordinates, `t8_dtri_bits.c:202-212`. -/
def ancestorTypeTri (dx dy : BitVec 32) (type : Nat) : Nat :=
  let diffXy := (dx - dy).toInt
  if diffXy > 0 then 0 else if diffXy < 0 then 1 else type

/-- Setting three entries of `possible_types` to 0. -/
def exclude (possible : List Bool) (a b c : Nat) : List Bool := ((possible.set a false).set b false).set c false

/-- The type of the ancestor of a tetrahedron from the differences of the coordinates,
`t8_dtri_bits.c:220-288`; `none` is a failed assertion. -/
def ancestorTypeTet (dx dy dz : BitVec 32) (type : Nat) : Option Nat := do
  let diffXy := (dx - dy).toInt
  let diffXz := (dx - dz).toInt
  let diffYz := (dy - dz).toInt
  let p := List.replicate 6 true
  let p := if diffXy > 0 then exclude p 2 3 4
    else if diffXy < 0 then exclude p 0 1 5
    else if type = 0 ∨ type = 1 ∨ type = 5 then exclude p 2 3 4 else exclude p 0 1 5
  let p := if diffXz > 0 then exclude p 3 4 5
    else if diffXz < 0 then exclude p 0 1 2
    else if type = 0 ∨ type = 1 ∨ type = 2 then exclude p 3 4 5 else exclude p 0 1 2
  let p := if diffYz > 0 then exclude p 0 4 5
    else if diffYz < 0 then exclude p 1 2 3
    else if type = 1 ∨ type = 2 ∨ type = 3 then exclude p 0 4 5 else exclude p 1 2 3
  match (List.range 6).filter (fun i => p.getD i false) with
  | [t] => some t
  | _ => none

/-- The type that `t8_dtri_ancestor` computes, `t8_dtri_bits.c:200-289`. -/
def ancestorType : (c : Cls) → (Fin c.dim → BitVec 32) → Nat → Option Nat
  | .tri, delta, type => some (ancestorTypeTri (delta 0) (delta 1) type)
  | .tet, delta, type => ancestorTypeTet (delta 0) (delta 1) (delta 2) type

/-- `t8_dtri_ancestor`, `t8_dtri_bits.c:166`. -/
def ancestor (e : Elem c.dim) (level : Nat) : Option (Elem c.dim) := do
  let mask := len c level - 1
  let delta := fun i => e.x i &&& mask
  let type ← ancestorType c delta e.type
  some ⟨fun i => e.x i &&& ~~~mask, level, type⟩

/-- `coordinates[k] += h`. -/
def addAt {d : Nat} (x : Fin d → BitVec 32) (k : Nat) (h : BitVec 32) : Fin d → BitVec 32 :=
  fun i => if i.val = k then x i + h else x i

/-- `t8_dtri_compute_integer_coords`, `t8_dtri_bits.c:295`. -/
def integerCoords : (c : Cls) → Elem c.dim → Nat → Fin c.dim → BitVec 32
  | .tri, e, vertex =>
    let h := len .tri e.level
    let ei := e.type
    if vertex = 0 then e.x
    else if vertex = 2 then addAt (addAt e.x ei h) (1 - ei) h
    else addAt e.x ei h
  | .tet, e, vertex =>
    let h := len .tet e.level
    let ei := e.type / 2
    let ej := (ei + (if e.type % 2 = 0 then 2 else 1)) % 3
    if vertex = 0 then e.x
    else if vertex = 2 then addAt (addAt e.x ei h) ej h
    else if vertex = 3 then addAt (addAt (addAt e.x ei h) ((ei + 1) % 3) h) ((ei + 2) % 3) h
    else addAt e.x ei h

/-- `t8_dtri_compute_all_coords`, `t8_dtri_bits.c:466`: the coordinates of vertex `v`. -/
def allCoords : (c : Cls) → Elem c.dim → Nat → Fin c.dim → BitVec 32
  | .tri, e, v =>
    let h := len .tri e.level
    let ei := e.type
    if v = 0 then e.x else if v = 1 then addAt e.x ei h else fun i => e.x i + h
  | .tet, e, v =>
    let h := len .tet e.level
    let ei := e.type / 2
    let ej := (ei + (if e.type % 2 = 0 then 2 else 1)) % 3
    if v = 0 then e.x else if v = 1 then addAt e.x ei h
    else if v = 2 then addAt (addAt e.x ei h) ej h else fun i => e.x i + h

/-- `t8_dtri_child`, `t8_dtri_bits.c:550`. Precondition `level < MAXLEVEL`. -/
def child (e : Elem c.dim) (childid : Nat) : Elem c.dim :=
  let beyCid := look (indexToBeyNumber c) e.type childid
  let x := if beyCid = 0 then e.x
    else
      let vertex := (beyidToVertex c).getD beyCid 0
      fun i => (e.x i + integerCoords c e vertex i).sshiftRight 1
  ⟨x, e.level + 1, look (typeOfChild c) e.type beyCid⟩

/-- `t8_dtri_childrenpv`, `t8_dtri_bits.c:591`. -/
def children (e : Elem c.dim) : List (Elem c.dim) :=
  let coords := allCoords c e
  ⟨coords 0, e.level + 1, e.type⟩ :: (List.range (c.numChildren - 1)).map (fun k =>
    let beyCid := look (indexToBeyNumber c) e.type (k + 1)
    let vertex := (beyidToVertex c).getD beyCid 0
    ⟨fun i => (coords 0 i + coords vertex i).sshiftRight 1, e.level + 1, look (typeOfChild c) e.type beyCid⟩)

/-- `t8_dtri_sibling`, `t8_dtri_bits.c:681`. -/
def sibling (e : Elem c.dim) (sibid : Nat) : Elem c.dim := child c (parent c e) sibid

/-- The coordinate number `k` (0 if there is none; the indices below are always in range). -/
def coord {d : Nat} (e : Elem d) (k : Nat) : BitVec 32 := if h : k < d then e.x ⟨k, h⟩ else 0

/-- `t8_dtri_is_familypv`, `t8_dtri_bits.c:647`. `none`: the array is too short. -/
def isFamilyTri (f : List (Elem 2)) : Option Bool := do
  let f0 ← f[0]?
  let f1 ← f[1]?
  let f2 ← f[2]?
  let f3 ← f[3]?
  let level := f0.level
  if level = 0 ∨ level ≠ f1.level ∨ level ≠ f2.level ∨ level ≠ f3.level then some false
  else
    let type := f0.type
    if f1.type ≠ 0 ∧ f2.type ≠ 1 ∧ f3.type ≠ type then some false
    else if f1.x 0 ≠ f2.x 0 ∨ f1.x 1 ≠ f2.x 1 then some false
    else
      let dir1 := type
      let inc := len .tri level
      some (decide (coord f1 dir1 = coord f0 dir1 + inc ∧ coord f1 (1 - dir1) = coord f0 (1 - dir1) ∧
        f3.x 0 = f0.x 0 + inc ∧ f3.x 1 = f0.x 1 + inc))

/-- `t8_dtet_is_familypv`, `t8_dtet_bits.c:27`. `none`: the array is too short. -/
def isFamilyTet (f : List (Elem 3)) : Option Bool := do
  let f0 ← f[0]?
  let f1 ← f[1]?
  let f2 ← f[2]?
  let f3 ← f[3]?
  let f4 ← f[4]?
  let f5 ← f[5]?
  let f6 ← f[6]?
  let f7 ← f[7]?
  let level := f0.level
  if level = 0 ∨ level ≠ f1.level ∨ level ≠ f2.level ∨ level ≠ f3.level ∨ level ≠ f4.level ∨ level ≠ f5.level ∨
      level ≠ f6.level ∨ level ≠ f7.level then some false
  else
    let type := f0.type
    let want := look (typeOfChildMorton .tet) type
    if f1.type ≠ want 1 ∨ f2.type ≠ want 2 ∨ f3.type ≠ want 3 ∨ f4.type ≠ want 4 ∨ f5.type ≠ want 5 ∨
        f6.type ≠ want 6 then some false
    else if f1.x ≠ f2.x ∨ f1.x ≠ f3.x ∨ f4.x ≠ f5.x ∨ f4.x ≠ f6.x then some false
    else
      let dir1 := type / 2
      let dir2 := 2 - type % 3
      let dir3 := ((type + 3) % 6) / 2
      let inc := len .tet level
      some (decide (coord f1 dir1 = coord f0 dir1 + inc ∧ coord f1 dir2 = coord f0 dir2 ∧
        coord f1 dir3 = coord f0 dir3 ∧ coord f4 dir1 = coord f0 dir1 + inc ∧
        coord f4 dir2 = coord f0 dir2 + inc ∧ coord f4 dir3 = coord f0 dir3 ∧
        f7.x 0 = f0.x 0 + inc ∧ f7.x 1 = f0.x 1 + inc ∧ f7.x 2 = f0.x 2 + inc))

/-- `elements_are_family`, `t8_default_tri.cxx:187`, `t8_default_tet.cxx:172`. -/
def isFamily : (c : Cls) → List (Elem c.dim) → Option Bool
  | .tri, f => isFamilyTri f
  | .tet, f => isFamilyTet f

/-- The loop of `t8_dtri_nearest_common_ancestor`, `t8_dtri_bits.c:798-802`. -/
def ncaLoop (e f : Elem c.dim) : Nat → Nat → Nat → Option Nat
  | 0, t1, t2 => if t1 = t2 then some 0 else none
  | r + 1, t1, t2 =>
    if t1 = t2 then some (r + 1)
    else ncaLoop e f r (computeTypeExt c e r t1 (r + 1)) (computeTypeExt c f r t2 (r + 1))

/-- `t8_dtri_nearest_common_ancestor`, `t8_dtri_bits.c:767`. -/
def nca (e f : Elem c.dim) : Option (Elem c.dim) := do
  let maxclor := (List.finRange c.dim).foldl (fun m i => m ||| (e.x i ^^^ f.x i)) 0
  let maxlevel := activeBits maxclor
  assertO (maxlevel ≤ c.maxLevel)
  let cLevel := min (c.maxLevel - maxlevel) (min e.level f.level)
  let rLevel ← ncaLoop c e f cLevel (computeType c e cLevel) (computeType c f cLevel)
  ancestor c e rLevel

/-- The geometric test of `t8_dtri_is_ancestor`, `t8_dtri_bits.c:1343-1346`. -/
def isInsideTypeTri (a b : Elem 2) : Bool :=
  let dx := (b.x 0 - a.x 0).toInt
  let dy := (b.x 1 - a.x 1).toInt
  let n1 := if a.type = 0 then dx else dy
  let n2 := if a.type = 0 then dy else dx
  !(decide (n1 ≥ (len .tri a.level).toInt) || decide (n2 < 0) || decide (n2 - n1 > 0) ||
    (decide (n2 = n1) && decide ((b.type : Int) = 1 - a.type)))

/-- The geometric test of `t8_dtri_is_ancestor`, `t8_dtri_bits.c:1356-1377`. -/
def isInsideTypeTet (a b : Elem 3) : Bool :=
  let t := a.type
  let dx := (b.x 0 - a.x 0).toInt
  let dy := (b.x 1 - a.x 1).toInt
  let dz := (b.x 2 - a.x 2).toInt
  let n1 := if t / 2 = 0 then dx else if t / 2 = 2 then dz else dy
  let n2 := if (t + 1) / 2 = 2 then dx else if (t + 1) / 2 = 1 then dz else dy
  let dir3 := if t % 3 = 2 then dx else if t % 3 = 0 then dz else dy
  let sign : Int := if t % 2 = 0 then 1 else -1
  let t6 : Int := t + 6
  let bt : Int := b.type
  !(decide (n1 ≥ (len .tet a.level).toInt) || decide (n2 < 0) || decide (dir3 - n1 > 0) || decide (n2 - dir3 > 0) ||
    (decide (dir3 = n2) && (decide (bt = (t6 + sign * 1) % 6) || decide (bt = (t6 + sign * 2) % 6) ||
      decide (bt = (t6 + sign * 3) % 6))) ||
    (decide (dir3 = n1) && (decide (bt = (t6 - sign * 1) % 6) || decide (bt = (t6 - sign * 2) % 6) ||
      decide (bt = (t6 - sign * 3) % 6))) ||
    (decide (dir3 = n2) && decide (n2 = n1) && decide (t6 - 6 ≠ bt)))

/-- The type part of `t8_dtri_is_ancestor`. -/
def isInsideType : (c : Cls) → Elem c.dim → Elem c.dim → Bool
  | .tri, a, b => isInsideTypeTri a b
  | .tet, a, b => isInsideTypeTet a b

/-- `t8_dtri_is_ancestor`, `t8_dtri_bits.c:1308`: the geometric test, which the scheme does not use. -/
def isAncestorGeo (a b : Elem c.dim) : Bool :=
  if a.level > b.level then false
  else if a.level = b.level then isEqual c a b
  else if (List.finRange c.dim).all (fun i => (a.x i ^^^ b.x i).sshiftRight (c.maxLevel - a.level) == 0) then
    isInsideType c a b
  else false

/-- `t8_dtri_is_sibling`, `t8_dtri_bits.c:1260`. -/
def isSibling (e f : Elem c.dim) : Bool :=
  if e.level = 0 then f.level == 0 && (List.finRange c.dim).all (fun i => e.x i == f.x i)
  else
    e.level == f.level && (List.finRange c.dim).all (fun i => (e.x i ^^^ f.x i) &&& ~~~(len c e.level) == 0) &&
      look (cidTypeToParenttype c) (computeCubeid c e e.level) e.type ==
        look (cidTypeToParenttype c) (computeCubeid c f f.level) f.type

/-- `t8_dtri_is_parent`, `t8_dtri_bits.c:1294`. -/
def isParent (e f : Elem c.dim) : Bool :=
  e.level + 1 == f.level && (List.finRange c.dim).all (fun i => e.x i == (f.x i &&& ~~~(len c f.level))) &&
    e.type == look (cidTypeToParenttype c) (computeCubeid c f f.level) f.type

/-- The loop of `t8_dtri_linear_id`, `t8_dtri_bits.c:1487-1492`, from level `i` down to 1. -/
def linearIdLoop (e : Elem c.dim) : Nat → Nat → Nat → BitVec 64 → BitVec 64
  | 0, _, _, id => id
  | i + 1, exponent, type, id =>
    let cid := computeCubeid c e (i + 1)
    linearIdLoop e i (exponent + c.dim) (look (cidTypeToParenttype c) cid type)
      (id ||| (BitVec.ofNat 64 (look (typeCidToIloc c) type cid) <<< exponent))

/-- `t8_dtri_linear_id`, `t8_dtri_bits.c:1464`. -/
def linearId (e : Elem c.dim) (level : Nat) : BitVec 64 :=
  if level > e.level then linearIdLoop c e e.level ((level - e.level) * c.dim) e.type 0
  else linearIdLoop c e level 0 (computeType c e level) 0

/-- `t8_dtri_compare`, `t8_dtri_bits.c:125`. -/
def compare (e f : Elem c.dim) : Int :=
  let maxlvl := max e.level f.level
  let id1 := linearId c e maxlvl
  let id2 := linearId c f maxlvl
  if id1 = id2 then (e.level : Int) - f.level
  else if id1 < id2 then -1 else if id1 ≠ id2 then 1 else 0

/-- `t8_dtri_linear_id_last_desc`, `t8_dtri_bits.c:1396`. -/
def linearIdLastDesc (e : Elem c.dim) (level : Nat) : BitVec 64 :=
  let tId := linearId c e e.level
  let exponent := level - e.level
  (((1 : BitVec 64) <<< (c.dim * exponent)) - 1) ||| (tId <<< (c.dim * exponent))

/-- The loop of `t8_dtri_linear_id_corner_desc`, `t8_dtri_bits.c:1453-1457`. -/
def cornerLoop (childId : BitVec 64) (n : Nat) : BitVec 64 :=
  (List.range n).foldl (fun id it => id ||| (childId <<< (c.dim * it))) 0

/-- `t8_dtri_linear_id_corner_desc`, `t8_dtri_bits.c:1418`. -/
def linearIdCornerDesc (e : Elem c.dim) (corner level : Nat) : BitVec 64 :=
  if corner = 0 then linearId c e level
  else if corner = c.dim then linearIdLastDesc c e level
  else
    let childId := BitVec.ofNat 64 (look (parenttypeBeyidToIloc c) e.type corner)
    let tId := linearId c e e.level
    cornerLoop c childId (level - e.level) ||| (tId <<< (c.dim * (level - e.level)))

/-- The loop of `t8_dtri_init_linear_id`, `t8_dtri_bits.c:1549-1562`: coordinates and type after step `i`. -/
def initLoop (id : BitVec 64) (level : Nat) : Nat → (Fin c.dim → BitVec 32) × Nat
  | 0 => (fun _ => 0, 0)
  | i + 1 =>
    let (x, type) := initLoop id level i
    let offsetCoords := c.maxLevel - (i + 1)
    let offsetIndex := level - (i + 1)
    let localIndex := ((id >>> (c.dim * offsetIndex)) &&& BitVec.ofNat 64 (c.numChildren - 1)).toNat
    let cid := look (parenttypeIlocToCid c) type localIndex
    (fun k => x k ||| (if cid &&& (1 <<< k.val) ≠ 0 then BitVec.twoPow 32 offsetCoords else 0),
      look (parenttypeIlocToType c) type localIndex)

/-- `t8_dtri_init_linear_id`, `t8_dtri_bits.c:1532`. -/
def initLinearId (level : Nat) (id : BitVec 64) : Option (Elem c.dim) := do
  assertO (id ≤ (1 : BitVec 64) <<< (c.dim * level))
  let (x, type) := initLoop c id level level
  some ⟨x, level, type⟩

/-- `element_set_linear_id`, `t8_default_tri.cxx:417`, `t8_default_tet.cxx:401`. -/
def setLinearId (level : Nat) (id : BitVec 64) : Option (Elem c.dim) := do
  assertO (level ≤ c.maxLevel)
  assertO (id < (1 : BitVec 64) <<< (c.dim * level))
  initLinearId c level id

/-- `t8_dtri_succ_pred_recursion`, `t8_dtri_bits.c:1583`; `s` is the content of the result before the call. -/
def succPred (e : Elem c.dim) : Nat → Elem c.dim → Int → Option (Elem c.dim)
  | 0, _, _ => none
  | l + 1, s, increment => do
    let level := l + 1
    let n : Int := c.numChildren
    assertO (level ≤ e.level)
    assertO (-n < increment ∧ increment < n)
    if increment = 0 then some e
    else
      let cid := computeCubeid c e level
      let typeLevel := computeType c e level
      let localIndex := (((look (typeCidToIloc c) typeLevel cid : Int) + n + increment) % n).toNat
      let (s, typeLevelP1) ←
        if localIndex = 0 then do
          let sign : Int := if increment < 0 then -1 else if increment > 0 then 1 else 0
          let s ← succPred e l s sign
          some (s, s.type)
        else some (s, look (cidTypeToParenttype c) cid typeLevel)
      let cid := look (parenttypeIlocToCid c) typeLevelP1 localIndex
      let bit := BitVec.twoPow 32 (c.maxLevel - level)
      some ⟨fun i => if cid &&& (1 <<< i.val) ≠ 0 then s.x i ||| bit else s.x i &&& ~~~bit, level,
        look (parenttypeIlocToType c) typeLevelP1 localIndex⟩

/-- `t8_dtri_successor`, `t8_dtri_bits.c:1625`, called by `element_construct_successor`,
`t8_default_tri.cxx:454`, with the level of the element. -/
def successor (e : Elem c.dim) (level : Nat) : Option (Elem c.dim) := succPred c e level e 1

/-- `t8_dtri_predecessor`, `t8_dtri_bits.c:1686`. -/
def predecessor (e : Elem c.dim) (level : Nat) : Option (Elem c.dim) := succPred c e level e (-1)

/-- `t8_dtri_first_descendant`, `t8_dtri_bits.c:1632`. -/
def firstDescendant (e : Elem c.dim) (level : Nat) : Option (Elem c.dim) := initLinearId c level (linearId c e level)

/-- `t8_dtri_last_descendant`, `t8_dtri_bits.c:1644`. -/
def lastDescendant (e : Elem c.dim) (level : Nat) : Option (Elem c.dim) :=
  initLinearId c level (linearIdLastDesc c e level)

/-- `t8_dtri_corner_descendant`, `t8_dtri_bits.c:1656`. Precondition `corner ≤ dim`. -/
def cornerDescendant (e : Elem c.dim) (corner level : Nat) : Option (Elem c.dim) :=
  if corner = 0 then firstDescendant c e level
  else if corner = c.dim then lastDescendant c e level
  else initLinearId c level (linearIdCornerDesc c e corner level)

/-- `t8_dtri_ancestor_id`, `t8_dtri_bits.c:1693`. -/
def ancestorId (e : Elem c.dim) (level : Nat) : Nat :=
  look (typeCidToIloc c) (computeType c e level) (computeCubeid c e level)

/-- `t8_dtri_child_id`, `t8_dtri_bits.c:1707`. -/
def childId (e : Elem c.dim) : Nat := look (typeCidToIloc c) e.type (computeCubeid c e e.level)

/-- `element_is_refinable`, `t8_default_common.hxx:295`. -/
def isRefinable (e : Elem c.dim) : Bool := e.level < c.maxLevel

/-- `element_is_ancestor`, `t8_default_common.hxx:202`. -/
def isAncestor (e f : Elem c.dim) : Bool := Default.isAncestor Elem.level (linearId c) e f

/-- `element_count_leaves`, `t8_default_common.hxx:281`. -/
def countLeaves (e : Elem c.dim) (level : Nat) : BitVec 64 := Default.countLeavesFromLevel e.level level c.dim

/-- `t8_dtri_element_pack`, `t8_dtri_bits.c:1753`: the coordinates, the type and the level. -/
def pack (es : List (Elem c.dim)) : List Word :=
  es.flatMap (fun e => (List.finRange c.dim).map (fun i => Word.int (e.x i)) ++ [Word.int8 e.type, Word.int8 e.level])

/-- `t8_dtri_element_pack_size`, `t8_dtri_bits.c:1777`: number of `MPI_INT` and of `MPI_INT8_T` values that the
bound provides for. -/
def packSize (count : Nat) : Nat × Nat := (count * c.dim, count * 2)

/-- Unpacking the coordinates of one element. -/
def unpackCoords : (c : Cls) → List Word → Option ((Fin c.dim → BitVec 32) × List Word)
  | .tri, buf => do
    let (x, buf) ← unpackInt buf
    let (y, buf) ← unpackInt buf
    some (fun i => if i.val = 0 then x else y, buf)
  | .tet, buf => do
    let (x, buf) ← unpackInt buf
    let (y, buf) ← unpackInt buf
    let (z, buf) ← unpackInt buf
    some (fun i => if i.val = 0 then x else if i.val = 1 then y else z, buf)

/-- `t8_dtri_element_unpack`, `t8_dtri_bits.c:1803`. -/
def unpack : Nat → List Word → Option (List (Elem c.dim) × List Word)
  | 0, buf => some ([], buf)
  | n + 1, buf => do
    let (x, buf) ← unpackCoords c buf
    let (type, buf) ← unpackInt8 buf
    let (level, buf) ← unpackInt8 buf
    let (es, buf) ← unpack n buf
    some (⟨x, level, type⟩ :: es, buf)

end T8.Simplex
