/-
How the elements of the default scheme are stored in memory, as they are sent in messages: the layouts of the structs, with 4 byte integers that
are aligned to 4 bytes. The padding bytes and the members of p4est's quadrants that are not part of an element are 0.
-/
import Verif.Model.GhostMessage
import Verif.Spec.DefaultForest

namespace T8.Neighbor
open T8.Ghost

/-- The members of a struct: their sizes and values. -/
abbrev Fields := List (Nat × Nat)

def pack (l : Fields) : List UInt8 := l.flatMap (fun p => toBytes p.1 p.2)

/-- The values of the members. -/
def unpack : List Nat → List UInt8 → List Nat
  | [], _ => []
  | k :: ks, bytes => ofBytes (bytes.take k) :: unpack ks (bytes.drop k)

/-- `t8_dvertex_t`, t8_dvertex.h:53; `t8_dline_t`, t8_dline.h:54; `t8_dtri_t`, t8_dtri.h:68; `t8_dtet_t`, t8_dtet.h:70. -/
def lineFields (l : Dline.Line) : Fields := [(4, l.x.toNat), (1, l.level), (3, 0)]
def triFields (t : Simplex.Elem 2) : Fields := [(1, t.level), (1, t.type), (2, 0), (4, (t.x 0).toNat), (4, (t.x 1).toNat)]
def tetFields (t : Simplex.Elem 3) : Fields :=
  [(1, t.level), (1, t.type), (2, 0), (4, (t.x 0).toNat), (4, (t.x 1).toNat), (4, (t.x 2).toNat)]

/-- The structs of all classes. `t8_dprism_t` (t8_dprism.h:71) is a line followed by a triangle; `t8_dpyramid_t` (t8_dpyramid.h:64) is a
tetrahedron followed by `switch_shape_at_level`, an `int8_t`. -/
def fieldsOf (S : P4ests) : (c : Eclass) → (treeOf S c).E → Fields
  | .vertex, (v : Dvertex.Vertex) => [(1, v.level)]
  | .line, (l : Dline.Line) => lineFields l
  | .quad, (q : Standalone.Elem 2) => [(4, (q.coords 0).toNat), (4, (q.coords 1).toNat), (1, q.level), (7, 0), (8, 0)]
  | .triangle, (t : Simplex.Elem 2) => triFields t
  | .hex, (q : Standalone.Elem 3) =>
    [(4, (q.coords 0).toNat), (4, (q.coords 1).toNat), (4, (q.coords 2).toNat), (1, q.level), (3, 0), (8, 0)]
  | .tet, (t : Simplex.Elem 3) => tetFields t
  | .prism, (p : Prism.Prism) => lineFields p.2 ++ triFields p.1
  | .pyramid, (p : Pyramid.Elem) => tetFields p.tet ++ [(1, (p.switch % 256).toNat), (3, 0)]

/-- The sizes of the members. -/
def widthsOf : Eclass → List Nat
  | .vertex => [1]
  | .line => [4, 1, 3]
  | .quad => [4, 4, 1, 7, 8]
  | .triangle => [1, 1, 2, 4, 4]
  | .hex => [4, 4, 4, 1, 3, 8]
  | .tet => [1, 1, 2, 4, 4, 4]
  | .prism => [4, 1, 3, 1, 1, 2, 4, 4]
  | .pyramid => [1, 1, 2, 4, 4, 4, 1, 3]

/-- The element whose members have the values. -/
def ofFields (S : P4ests) : (c : Eclass) → (Nat → Nat) → (treeOf S c).E
  | .vertex, v => (⟨v 0⟩ : Dvertex.Vertex)
  | .line, v => (⟨BitVec.ofNat 32 (v 0), v 1⟩ : Dline.Line)
  | .quad, v => (⟨fun i => BitVec.ofNat 32 (v i), v 2⟩ : Standalone.Elem 2)
  | .triangle, v => (⟨fun i => BitVec.ofNat 32 (v (3 + i)), v 0, v 1⟩ : Simplex.Elem 2)
  | .hex, v => (⟨fun i => BitVec.ofNat 32 (v i), v 3⟩ : Standalone.Elem 3)
  | .tet, v => (⟨fun i => BitVec.ofNat 32 (v (3 + i)), v 0, v 1⟩ : Simplex.Elem 3)
  | .prism, v => ((⟨fun i => BitVec.ofNat 32 (v (6 + i)), v 3, v 4⟩, ⟨BitVec.ofNat 32 (v 0), v 1⟩) : Prism.Prism)
  | .pyramid, v => (⟨⟨fun i => BitVec.ofNat 32 (v (3 + i)), v 0, v 1⟩, (v 6 : Int).bmod 256⟩ : Pyramid.Elem)

/-- `t8_eclass_t` as a number, src/t8_eclass/t8_eclass.h:42-66. -/
def eclassNum : Eclass → Nat
  | .vertex => 0 | .line => 1 | .quad => 2 | .triangle => 3 | .hex => 4 | .tet => 5 | .prism => 6 | .pyramid => 7

/-- `get_element_size` of the schemes. -/
def sizeOfNum : Nat → Nat
  | 0 => 1 | 1 => 8 | 2 => 24 | 3 => 12 | 4 => 24 | 5 => 16 | 6 => 20 | _ => 20

/-- The elements of a forest of the default scheme in memory. -/
def defaultCodec (S : P4ests) (classes : List Eclass) : Codec (forestTrees S classes) where
  eclass g := eclassNum (classOf classes g)
  size := sizeOfNum
  encode g e := pack (fieldsOf S (classOf classes g) e)
  decode g bytes := ofFields S (classOf classes g) (fun i => (unpack (widthsOf (classOf classes g)) bytes).getD i 0)

end T8.Neighbor
