import Mathlib.Tactic.IntervalCases
import Mathlib.Tactic.FinCases
import Mathlib.Tactic.Linarith
import Verif.Model.EclassTables
import Verif.Spec.EclassTables

/-!
# Proofs: the tables of the element classes describe the reference elements
-/

namespace T8.Tables
open T8 T8.Neighbor

/-! ### Faces -/

/-- The affine functions that support the faces; they only occur in proofs. -/
def inner : Eclass → Nat → IPt × Int
  | .line, f => [(![1, 0, 0], 0), (![-1, 0, 0], 1)].getD f 0
  | .quad, f => [(![1, 0, 0], 0), (![-1, 0, 0], 1), (![0, 1, 0], 0), (![0, -1, 0], 1)].getD f 0
  | .triangle, f => [(![-1, 0, 0], 1), (![1, -1, 0], 0), (![0, 1, 0], 0)].getD f 0
  | .hex, f => [(![1, 0, 0], 0), (![-1, 0, 0], 1), (![0, 1, 0], 0), (![0, -1, 0], 1), (![0, 0, 1], 0), (![0, 0, -1], 1)].getD f 0
  | .tet, f => [(![-1, 0, 0], 1), (![1, 0, -1], 0), (![0, -1, 1], 0), (![0, 1, 0], 0)].getD f 0
  | .prism, f => [(![-1, 0, 0], 1), (![1, -1, 0], 0), (![0, 1, 0], 0), (![0, 0, 1], 0), (![0, 0, -1], 1)].getD f 0
  | .pyramid, f => [(![1, 0, -1], 0), (![-1, 0, 0], 1), (![0, 1, -1], 0), (![0, -1, 0], 1), (![0, 0, 1], 0)].getD f 0
  | .vertex, _ => 0

/-- The vertices of a face of the table. -/
def face (c : Eclass) (f : Nat) : List Nat := (faceVertices c).getD f []

theorem face_supported (c : Eclass) {f : Nat} (hf : f < c.numFaces) : Supported c (face c f) := by
  refine ⟨(inner c f).1, (inner c f).2, ?_⟩
  cases c
  all_goals
    simp only [Eclass.numFaces] at hf
    interval_cases f <;> decide

theorem val (a v : IPt) : dot a v = a 0 * v 0 + a 1 * v 1 + a 2 * v 2 := rfl

theorem v2 (a b c : Int) : (![a, b, c] : Fin 3 → Int) 2 = c := rfl

/-- Takes face `f` in `in_face`. -/
macro "pick" f:num : tactic => `(tactic| (
  refine ⟨$f, by decide, fun v hv hn => ?_⟩
  simp only [card, refVertices, List.length] at hv
  interval_cases v <;> simp [ref, refVertices, v2, face, faceVertices] at hn ⊢ <;> omega))

/-- Every proper supported set is contained in a face of the table. -/
theorem in_face (c : Eclass) (hc : c ≠ .vertex) {S : List Nat} (hs : Supported c S) (hp : Proper c S) :
    ∃ f < c.numFaces, ∀ v < card c, v ∈ S → v ∈ face c f := by
  obtain ⟨a, b, h⟩ := hs
  obtain ⟨p, hp, hpS⟩ := hp
  have hpos := (h p hp).2 hpS
  have h0 : ∀ v < card c, 0 ≤ dot a (ref c v) + b := by
    intro v hv
    by_cases hm : v ∈ S
    · exact ((h v hv).1 hm).ge
    · exact ((h v hv).2 hm).le
  suffices hmain : ∃ f < c.numFaces, ∀ v < card c, v ∉ face c f → 0 < dot a (ref c v) + b by
    obtain ⟨f, hf, hm⟩ := hmain
    refine ⟨f, hf, fun v hv hm' => ?_⟩
    by_contra hn
    have := hm v hv hn
    have := (h v hv).1 hm'
    omega
  clear h hpS S
  simp only [val] at *
  generalize a 0 = a0 at *
  generalize a 1 = a1 at *
  generalize a 2 = a2 at *
  cases c
  case vertex => exact absurd rfl hc
  case line =>
    have k0 := h0 0 (by decide)
    have k1 := h0 1 (by decide)
    simp only [card, refVertices, List.length] at hp
    simp [ref, refVertices] at k0 k1
    interval_cases p <;> simp [ref, refVertices] at hpos
    · pick 1
    · pick 0
  case triangle =>
    have k0 := h0 0 (by decide)
    have k1 := h0 1 (by decide)
    have k2 := h0 2 (by decide)
    simp only [card, refVertices, List.length] at hp
    simp [ref, refVertices] at k0 k1 k2
    interval_cases p <;> simp [ref, refVertices] at hpos
    · pick 0
    · pick 1
    · pick 2
  case tet =>
    have k0 := h0 0 (by decide)
    have k1 := h0 1 (by decide)
    have k2 := h0 2 (by decide)
    have k3 := h0 3 (by decide)
    simp only [card, refVertices, List.length] at hp
    simp [ref, refVertices, v2] at k0 k1 k2 k3
    interval_cases p <;> simp [ref, refVertices, v2] at hpos
    · pick 0
    · pick 1
    · pick 2
    · pick 3
  case quad =>
    have k0 := h0 0 (by decide)
    have k1 := h0 1 (by decide)
    have k2 := h0 2 (by decide)
    have k3 := h0 3 (by decide)
    simp [ref, refVertices] at k0 k1 k2 k3
    rcases lt_trichotomy a0 0 with g | rfl | g
    · pick 1
    · rcases lt_trichotomy a1 0 with g | rfl | g
      · pick 3
      · simp only [card, refVertices, List.length] at hp
        have hb : 0 < b := by interval_cases p <;> simp [ref, refVertices] at hpos <;> omega
        pick 0
      · pick 2
    · pick 0
  case hex =>
    have k0 := h0 0 (by decide)
    have k1 := h0 1 (by decide)
    have k2 := h0 2 (by decide)
    have k3 := h0 3 (by decide)
    have k4 := h0 4 (by decide)
    have k5 := h0 5 (by decide)
    have k6 := h0 6 (by decide)
    have k7 := h0 7 (by decide)
    simp [ref, refVertices, v2] at k0 k1 k2 k3 k4 k5 k6 k7
    rcases lt_trichotomy a0 0 with g | rfl | g
    · pick 1
    · rcases lt_trichotomy a1 0 with g | rfl | g
      · pick 3
      · rcases lt_trichotomy a2 0 with g | rfl | g
        · pick 5
        · have hb : 0 < b := by simpa using hpos
          pick 0
        · pick 4
      · pick 2
    · pick 0
  case prism =>
    have k0 := h0 0 (by decide)
    have k1 := h0 1 (by decide)
    have k2 := h0 2 (by decide)
    have k3 := h0 3 (by decide)
    have k4 := h0 4 (by decide)
    have k5 := h0 5 (by decide)
    simp [ref, refVertices, v2] at k0 k1 k2 k3 k4 k5
    rcases lt_trichotomy a2 0 with g | rfl | g
    · pick 4
    · simp only [card, refVertices, List.length] at hp
      interval_cases p <;> simp [ref, refVertices, v2] at hpos
      · pick 0
      · pick 1
      · pick 2
      · pick 0
      · pick 1
      · pick 2
    · pick 3
  case pyramid =>
    have k0 := h0 0 (by decide)
    have k1 := h0 1 (by decide)
    have k2 := h0 2 (by decide)
    have k3 := h0 3 (by decide)
    have k4 := h0 4 (by decide)
    simp [ref, refVertices, v2] at k0 k1 k2 k3 k4
    by_cases k : 0 < a0 + a1 + a2 + b
    · pick 4
    rcases lt_trichotomy a0 0 with g | rfl | g
    · pick 1
    · rcases lt_trichotomy a1 0 with g | rfl | g
      · pick 3
      · simp only [card, refVertices, List.length] at hp
        have hb : 0 < b := by interval_cases p <;> simp [ref, refVertices, v2] at hpos <;> omega
        pick 0
      · pick 2
    · pick 0

theorem face_sub (c : Eclass) {f g : Nat} (hf : f < c.numFaces) (hg : g < c.numFaces) (h : ∀ v < card c, v ∈ face c f → v ∈ face c g) : f = g := by
  cases c <;> simp only [Eclass.numFaces] at hf hg <;> interval_cases f <;> interval_cases g <;> first | rfl | exact absurd h (by decide)

/-- **C66** (faces).  The rows of `t8_face_vertex_to_tree_vertex` are the faces of the reference elements: a set of vertices is a face iff it is one of the first
`t8_eclass_num_faces` rows, and no face occurs twice. -/
theorem C66_faces (c : Eclass) (hc : c ≠ .vertex) : (∀ S, IsFacet c S ↔ ∃ f < c.numFaces, ∀ v < card c, v ∈ S ↔ v ∈ face c f) ∧
    ∀ f < c.numFaces, ∀ g < c.numFaces, (∀ v < card c, v ∈ face c f ↔ v ∈ face c g) → f = g := by
  have hproper : ∀ f < c.numFaces, (∃ v < card c, v ∈ face c f) ∧ Proper c (face c f) := by
    intro f hf
    cases c <;> simp only [Eclass.numFaces] at hf <;> interval_cases f <;> exact ⟨by decide, by unfold Proper; decide⟩
  refine ⟨fun S => ⟨?_, ?_⟩, fun f hf g hg h => face_sub c hf hg fun v hv => (h v hv).1⟩
  · rintro ⟨_, hs, hp, hm⟩
    obtain ⟨f, hf, h⟩ := in_face c hc hs hp
    exact ⟨f, hf, fun v hv => ⟨h v hv, hm _ (face_supported c hf) (hproper f hf).2 h v hv⟩⟩
  · rintro ⟨f, hf, h⟩
    obtain ⟨a, b, hab⟩ := face_supported c hf
    obtain ⟨⟨v, hv, hvf⟩, w, hw, hwf⟩ := hproper f hf
    refine ⟨⟨v, hv, (h v hv).2 hvf⟩, ⟨a, b, fun u hu => by rw [h u hu]; exact hab u hu⟩, ⟨w, hw, fun hS => hwf ((h w hw).1 hS)⟩, ?_⟩
    intro S' hs' hp' hsub u hu huS
    obtain ⟨g, hg, hS'⟩ := in_face c hc hs' hp'
    obtain rfl := face_sub c hf hg fun x hx hxf => hS' x hx (hsub x hx ((h x hx).2 hxf))
    exact (h u hu).2 (hS' u hu huS)

/-! ### Edges -/

/-- The edges, only used in proofs. -/
def edgeList : Eclass → List (Nat × Nat)
  | .vertex => []
  | .line => [(0, 1)]
  | .quad => [(0, 2), (1, 3), (0, 1), (2, 3)]
  | .triangle => [(1, 2), (0, 2), (0, 1)]
  | .hex => [(0, 1), (2, 3), (4, 5), (6, 7), (0, 2), (1, 3), (4, 6), (5, 7), (0, 4), (1, 5), (2, 6), (3, 7)]
  | .tet => [(0, 1), (0, 2), (0, 3), (1, 2), (1, 3), (2, 3)]
  | .prism => [(1, 2), (0, 2), (0, 1), (4, 5), (3, 5), (3, 4), (1, 4), (2, 5), (0, 3)]
  | .pyramid => [(0, 1), (2, 3), (0, 2), (1, 3), (0, 4), (1, 4), (2, 4), (3, 4)]

/-- The sum of the functions of the faces that contain both vertices. -/
def edgeFun (c : Eclass) (v w : Nat) : IPt × Int :=
  ((List.range c.numFaces).filter fun f => v ∈ face c f ∧ w ∈ face c f).foldl (fun s f => s + inner c f) 0

theorem isEdge_iff (c : Eclass) {v w : Nat} (hvw : v < w) : IsEdge c v w ↔ (v, w) ∈ edgeList c := by
  constructor
  · rintro ⟨hv, hw, _, a, b, h⟩
    simp only [val] at h
    generalize a 0 = a0 at *
    generalize a 1 = a1 at *
    generalize a 2 = a2 at *
    cases c <;> simp only [card, refVertices, List.length] at hv hw h <;> interval_cases w <;> interval_cases v <;>
      first
      | decide
      | (exfalso
         have k0 := h 0 (by decide)
         have k1 := h 1 (by decide)
         have k2 := h 2 (by decide)
         have k3 := h 3 (by decide)
         first
         | (have k4 := h 4 (by decide)
            have k5 := h 5 (by decide)
            have k6 := h 6 (by decide)
            have k7 := h 7 (by decide)
            simp [ref, refVertices, v2] at k0 k1 k2 k3 k4 k5 k6 k7
            omega)
         | (have k4 := h 4 (by decide)
            have k5 := h 5 (by decide)
            simp [ref, refVertices, v2] at k0 k1 k2 k3 k4 k5
            omega)
         | (have k4 := h 4 (by decide)
            simp [ref, refVertices, v2] at k0 k1 k2 k3 k4
            omega)
         | (simp [ref, refVertices, v2] at k0 k1 k2 k3
            omega))
  · intro h
    refine ⟨?_, ?_, hvw.ne, (edgeFun c v w).1, (edgeFun c v w).2, ?_⟩
    · cases c <;> simp [edgeList] at h <;> (try simp only [card, refVertices, List.length]) <;> omega
    · cases c <;> simp [edgeList] at h <;> (try simp only [card, refVertices, List.length]) <;> omega
    · have hall : ∀ p ∈ edgeList c, ∀ u < card c, (u ∈ [p.1, p.2] → dot (edgeFun c p.1 p.2).1 (ref c u) + (edgeFun c p.1 p.2).2 = 0) ∧
          (u ∉ [p.1, p.2] → 0 < dot (edgeFun c p.1 p.2).1 (ref c u) + (edgeFun c p.1 p.2).2) := by
        cases c <;> decide +kernel
      exact hall (v, w) h

theorem isEdge_comm (c : Eclass) (v w : Nat) : IsEdge c v w ↔ IsEdge c w v := by
  have h : ∀ v w, IsEdge c v w → IsEdge c w v := by
    rintro v w ⟨hv, hw, hne, a, b, h⟩
    refine ⟨hw, hv, hne.symm, a, b, fun u hu => ?_⟩
    have := h u hu
    simp only [List.mem_cons, List.not_mem_nil, or_false] at this ⊢
    rwa [or_comm]
  exact ⟨h v w, h w v⟩

/-- **C66** (number of edges).  `t8_eclass_num_edges` is the number of edges of the reference element. -/
theorem C66_num_edges (c : Eclass) : ∃ L : List (Nat × Nat), L.Nodup ∧ L.length = numEdges c ∧ ∀ v w, v < w → (IsEdge c v w ↔ (v, w) ∈ L) :=
  ⟨edgeList c, by cases c <;> decide, by cases c <;> rfl, fun _ _ h => isEdge_iff c h⟩

/-- Vertices of an edge of the table. -/
def endpoint (c : Eclass) (e i : Nat) : Int := entry (edgeVertices c) e i

/-- **C66** (edges).  The rows of `t8_edge_vertex_to_tree_vertex` are the edges of the reference elements with ascending vertices, and no edge occurs twice.  The
full claim is for all classes; it is false for lines and pyramids, see `C66_edges_line_false` and `C66_edges_pyramid_false`. -/
theorem C66_edges_partial (c : Eclass) (h1 : c ≠ .line) (h2 : c ≠ .pyramid) :
    (∀ v w : Nat, v < w → (IsEdge c v w ↔ ∃ e < numEdges c, endpoint c e 0 = v ∧ endpoint c e 1 = w)) ∧
    (∀ e < numEdges c, endpoint c e 0 < endpoint c e 1) ∧
    ∀ e < numEdges c, ∀ e' < numEdges c, endpoint c e 0 = endpoint c e' 0 → endpoint c e 1 = endpoint c e' 1 → e = e' := by
  have hlist : ∀ e < numEdges c, (edgeList c).getD e (0, 0) ∈ edgeList c ∧ endpoint c e 0 = ((edgeList c).getD e (0, 0)).1 ∧
      endpoint c e 1 = ((edgeList c).getD e (0, 0)).2 := by
    cases c <;> first | exact absurd rfl h1 | exact absurd rfl h2 | decide +kernel
  have hmem : ∀ p ∈ edgeList c, ∃ e < numEdges c, (edgeList c).getD e (0, 0) = p := by
    cases c <;> first | exact absurd rfl h1 | exact absurd rfl h2 | decide +kernel
  refine ⟨fun v w hvw => ?_, ?_, ?_⟩
  · rw [isEdge_iff c hvw]
    constructor
    · intro h
      obtain ⟨e, he, hp⟩ := hmem _ h
      obtain ⟨_, h0, h1⟩ := hlist e he
      rw [hp] at h0 h1
      exact ⟨e, he, h0, h1⟩
    · rintro ⟨e, he, h0, h1⟩
      obtain ⟨hm, h0', h1'⟩ := hlist e he
      have : (edgeList c).getD e (0, 0) = (v, w) := Prod.ext (show _ = v by omega) (show _ = w by omega)
      rwa [this] at hm
  · cases c <;> first | exact absurd rfl h1 | exact absurd rfl h2 | decide +kernel
  · cases c <;> first | exact absurd rfl h1 | exact absurd rfl h2 | decide +kernel

/-- **C66 fails for lines**: both vertices of the edge are 0 in the table. -/
theorem C66_edges_line_false : IsEdge .line 0 1 ∧ numEdges .line = 1 ∧ endpoint .line 0 0 = 0 ∧ endpoint .line 0 1 = 0 :=
  ⟨(isEdge_iff .line (by decide)).2 (by decide), rfl, rfl, rfl⟩

/-- **C66 fails for pyramids**: there are 8 edges, but no row of the table is one of them. -/
theorem C66_edges_pyramid_false : numEdges .pyramid = 8 ∧ IsEdge .pyramid 0 4 ∧
    ∀ e, endpoint .pyramid e 0 = endpoint .pyramid e 1 ∨ endpoint .pyramid e 0 = -1 := by
  refine ⟨rfl, (isEdge_iff .pyramid (by decide)).2 (by decide), fun e => ?_⟩
  match e with
  | 0 => right; rfl
  | e + 1 => left; rfl

/-- Vertex `v` belongs to edge `e` of the table. -/
def OnEdge (c : Eclass) (e : Nat) (v : Nat) : Prop := endpoint c e 0 = v ∨ endpoint c e 1 = v

instance (c : Eclass) (e v : Nat) : Decidable (OnEdge c e v) := by unfold OnEdge; infer_instance

/-- Edge `e` of the table belongs to face `f`. -/
def InFace (c : Eclass) (e f : Nat) : Prop := ∀ v < card c, OnEdge c e v → v ∈ face c f

instance (c : Eclass) (e f : Nat) : Decidable (InFace c e f) := by unfold InFace; infer_instance

/-- **C66** (faces of edges).  The two entries of `t8_edge_to_face` are the two faces that an edge of a hexahedron, tetrahedron or prism belongs to, and the
first entry is the face that an edge of a quad or triangle is. -/
theorem C66_edge_to_face (c : Eclass) (hc : c = .hex ∨ c = .tet ∨ c = .prism ∨ c = .quad ∨ c = .triangle) {e f : Nat} (he : e < numEdges c)
    (hf : f < c.numFaces) :
    (InFace c e f ↔ entry (edgeToFace c) e 0 = f ∨ c.dim = 3 ∧ entry (edgeToFace c) e 1 = f) ∧
      (c.dim = 3 → entry (edgeToFace c) e 0 ≠ entry (edgeToFace c) e 1) := by
  have : ∀ e < numEdges c, ∀ f < c.numFaces, (InFace c e f ↔ entry (edgeToFace c) e 0 = f ∨ c.dim = 3 ∧ entry (edgeToFace c) e 1 = f) ∧
      (c.dim = 3 → entry (edgeToFace c) e 0 ≠ entry (edgeToFace c) e 1) := by
    rcases hc with rfl | rfl | rfl | rfl | rfl <;> decide +kernel
  exact this e he f hf

/-- **C66** (edges of faces).  The first entries of a row of `t8_face_edge_to_tree_edge`, as many as the face has vertices (one for quads and triangles), are the
edges of the face, without repetition. -/
theorem C66_face_edges (c : Eclass) (hc : c = .hex ∨ c = .tet ∨ c = .prism ∨ c = .quad ∨ c = .triangle) {f : Nat} (hf : f < c.numFaces) :
    (∀ e < numEdges c, InFace c e f ↔ ∃ i < (if c.dim = 3 then (face c f).length else 1), entry (faceEdges c) f i = e) ∧
      ∀ i < (if c.dim = 3 then (face c f).length else 1), ∀ j < (if c.dim = 3 then (face c f).length else 1),
        entry (faceEdges c) f i = entry (faceEdges c) f j → i = j := by
  have : ∀ f < c.numFaces, (∀ e < numEdges c, InFace c e f ↔ ∃ i < (if c.dim = 3 then (face c f).length else 1), entry (faceEdges c) f i = e) ∧
      ∀ i < (if c.dim = 3 then (face c f).length else 1), ∀ j < (if c.dim = 3 then (face c f).length else 1),
        entry (faceEdges c) f i = entry (faceEdges c) f j → i = j := by
    rcases hc with rfl | rfl | rfl | rfl | rfl <;> decide +kernel
  exact this f hf

/-- The edge that belongs to vertex `i` of face `f` in `t8_face_to_edge_neighbor` starts at this vertex and leaves the face. -/
def Leaves (c : Eclass) (f i : Nat) : Prop :=
  ∃ e < numEdges c, entry (faceToEdgeNeighbor c) f i = e ∧ OnEdge c e ((face c f).getD i 0) ∧ ¬ InFace c e f

instance (c : Eclass) (f i : Nat) : Decidable (Leaves c f i) := by unfold Leaves; infer_instance

/-- **C66** (edges that leave a face).  `t8_face_to_edge_neighbor` gives for each vertex of a face an edge that starts there and is not in the face.  The full
claim is for all classes with faces; it is false for prisms, see `C66_neighbor_false`, and there is no table for pyramids. -/
theorem C66_neighbor_partial (c : Eclass) (hc : c = .hex ∨ c = .tet ∨ c = .quad ∨ c = .triangle) {f i : Nat} (hf : f < c.numFaces)
    (hi : i < (face c f).length) : Leaves c f i := by
  have : ∀ f < c.numFaces, ∀ i < (face c f).length, Leaves c f i := by
    rcases hc with rfl | rfl | rfl | rfl <;> decide +kernel
  exact this f hf i hi

/-- **C66 fails for prisms**: no entry of the table is right. -/
theorem C66_neighbor_false : ∀ f < 5, ∀ i < (face .prism f).length, ¬ Leaves .prism f i := by decide +kernel

/-! ### Orientations, normals, corners of VTK and counts -/

/-- The normal of a face as in the comment at t8_eclass.h:255: the cross product of `v_1 - v_0` and `v_2 - v_0`. -/
def normal (c : Eclass) (f : Nat) : IPt :=
  cross (ref c ((face c f).getD 1 0) - ref c ((face c f).getD 0 0)) (ref c ((face c f).getD 2 0) - ref c ((face c f).getD 0 0))

/-- **C66** (orientation of faces).  A face of a three-dimensional class has orientation 0 if its normal points to the inside and 1 if it points to the
outside. -/
theorem C66_orientation (c : Eclass) (hc : c.dim = 3) {f v : Nat} (hf : f < c.numFaces) (hv : v < card c) (hvf : v ∉ face c f) :
    ((faceOrientation c).getD f 0 = 0 ∧ 0 < dot (normal c f) (ref c v - ref c ((face c f).getD 0 0))) ∨
      ((faceOrientation c).getD f 0 = 1 ∧ dot (normal c f) (ref c v - ref c ((face c f).getD 0 0)) < 0) := by
  have : ∀ f < c.numFaces, ∀ v < card c, v ∉ face c f →
      ((faceOrientation c).getD f 0 = 0 ∧ 0 < dot (normal c f) (ref c v - ref c ((face c f).getD 0 0))) ∨
      ((faceOrientation c).getD f 0 = 1 ∧ dot (normal c f) (ref c v - ref c ((face c f).getD 0 0)) < 0) := by
    cases c <;> first | exact absurd hc (by decide) | decide +kernel
  exact this f hf v hv hvf

/-- Row `f` of `t8_reference_face_normal_tet`. -/
def tetNormal (f : Nat) : IPt := ![entry tetNormals f 0, entry tetNormals f 1, entry tetNormals f 2]

/-- **C66** (normals of tetrahedra).  The rows of `t8_reference_face_normal_tet` are normal to the faces and point to the inside. -/
theorem C66_tet_normals {f v w : Nat} (hf : f < 4) (hv : v < 4) (hw : w ∈ face .tet f) :
    (v ∈ face .tet f → dot (tetNormal f) (ref .tet v - ref .tet w) = 0) ∧ (v ∉ face .tet f → 0 < dot (tetNormal f) (ref .tet v - ref .tet w)) := by
  have : ∀ f < 4, ∀ v < 4, ∀ w ∈ face .tet f,
      (v ∈ face .tet f → dot (tetNormal f) (ref .tet v - ref .tet w) = 0) ∧ (v ∉ face .tet f → 0 < dot (tetNormal f) (ref .tet v - ref .tet w)) := by
    decide +kernel
  exact this f hf v hv w hw

/-- Corner `i` of a VTK cell. -/
def vtk (c : Eclass) (i : Nat) : IPt := ref c ((vtkToT8 c).getD i 0)

/-- **C66** (corners of VTK cells).  The two tables are inverse to each other, and the corners are in the order that VTK demands: around quads and around the
bottom and the top of hexahedra, around the bottom of pyramids, the bottom of hexahedra, pyramids and tetrahedra seen from the top counterclockwise, and the
bottom of wedges clockwise. -/
theorem C66_vtk : (∀ c : Eclass, (vtkToT8 c).length = c.numVertices ∧ (t8ToVtk c).length = c.numVertices ∧
      ∀ i < c.numVertices, (t8ToVtk c).getD ((vtkToT8 c).getD i 0) 9 = i ∧ (vtkToT8 c).getD ((t8ToVtk c).getD i 0) 9 = i) ∧
    (∀ c ∈ [Eclass.quad, .hex, .pyramid], ∀ i < 4, IsEdge c ((vtkToT8 c).getD i 0) ((vtkToT8 c).getD ((i + 1) % 4) 0)) ∧
    (∀ i < 4, IsEdge .hex ((vtkToT8 .hex).getD i 0) ((vtkToT8 .hex).getD (i + 4) 0)) ∧
    (∀ i < 3, IsEdge .prism ((vtkToT8 .prism).getD i 0) ((vtkToT8 .prism).getD (i + 3) 0)) ∧
    0 < dot (cross (vtk .tet 1 - vtk .tet 0) (vtk .tet 2 - vtk .tet 0)) (vtk .tet 3 - vtk .tet 0) ∧
    0 < dot (cross (vtk .hex 1 - vtk .hex 0) (vtk .hex 2 - vtk .hex 0)) (vtk .hex 4 - vtk .hex 0) ∧
    0 < dot (cross (vtk .pyramid 1 - vtk .pyramid 0) (vtk .pyramid 2 - vtk .pyramid 0)) (vtk .pyramid 4 - vtk .pyramid 0) ∧
    dot (cross (vtk .prism 1 - vtk .prism 0) (vtk .prism 2 - vtk .prism 0)) (vtk .prism 3 - vtk .prism 0) < 0 := by
  have hE : ∀ (c : Eclass) (v w : Nat), ((v < w ∧ (v, w) ∈ edgeList c) ∨ (w < v ∧ (w, v) ∈ edgeList c)) → IsEdge c v w := by
    rintro c v w (⟨h, h'⟩ | ⟨h, h'⟩)
    · exact (isEdge_iff c h).2 h'
    · exact (isEdge_comm c v w).2 ((isEdge_iff c h).2 h')
  refine ⟨fun c => by cases c <;> decide +kernel, ?_, ?_, ?_, by decide +kernel, by decide +kernel, by decide +kernel, by decide +kernel⟩
  · intro c hc i hi
    apply hE
    simp only [List.mem_cons, List.not_mem_nil, or_false] at hc
    rcases hc with rfl | rfl | rfl <;> interval_cases i <;> decide
  · intro i hi
    apply hE
    interval_cases i <;> decide
  · intro i hi
    apply hE
    interval_cases i <;> decide

/-- **C66** (types and numbers of faces).  The type of a face has as many vertices as the face and the dimension of a face, and `t8_eclass_boundary_count` counts
the vertices, the edges and the faces of each type. -/
theorem C66_counts (c : Eclass) : c.numVertices = card c ∧
    (∀ f < c.numFaces, ∃ t, faceType c f = some t ∧ t.dim + 1 = c.dim ∧ t.numVertices = (face c f).length) ∧
    (c ≠ .vertex → (boundaryCount c).getD 0 0 = card c) ∧
    (1 < c.dim → (boundaryCount c).getD 1 0 = numEdges c) ∧
    (c.dim = 3 → (boundaryCount c).getD 2 0 = ((List.range c.numFaces).filter fun f => faceType c f = some .quad).length ∧
      (boundaryCount c).getD 3 0 = ((List.range c.numFaces).filter fun f => faceType c f = some .triangle).length) := by
  refine ⟨by cases c <;> rfl, ?_, by cases c <;> decide, by cases c <;> decide, by cases c <;> decide⟩
  intro f hf
  cases c <;> simp only [Eclass.numFaces] at hf <;> interval_cases f <;> exact ⟨_, rfl, rfl, rfl⟩

/-! ### The hypotheses can be met -/

/-- Beside `C66_faces`: the bottom of a pyramid is a face, one of its edges is not, and neither is a diagonal section. -/
example : IsFacet .pyramid [3, 1, 0, 2] ∧ ¬ IsFacet .pyramid [0, 1] ∧ ¬ IsFacet .pyramid [0, 3, 4] := by
  refine ⟨((C66_faces .pyramid (by decide)).1 _).2 ⟨4, by decide, by decide⟩, fun h => ?_, fun h => ?_⟩ <;>
    · obtain ⟨f, hf, h⟩ := ((C66_faces .pyramid (by decide)).1 _).1 h
      simp only [Eclass.numFaces] at hf
      interval_cases f <;> exact absurd h (by decide)

/-- Beside `C66_edges_partial`: an edge and a diagonal of a prism. -/
example : IsEdge .prism 2 5 ∧ ¬ IsEdge .prism 2 4 :=
  ⟨((C66_edges_partial .prism (by decide) (by decide)).1 2 5 (by decide)).2 ⟨7, by decide, by decide⟩, fun h => by
    obtain ⟨e, he, h⟩ := ((C66_edges_partial .prism (by decide) (by decide)).1 2 4 (by decide)).1 h
    have he : e < 9 := he
    interval_cases e <;> exact absurd h (by decide)⟩

/-- Beside `C66_edge_to_face`, `C66_face_edges`, `C66_neighbor_partial` and `C66_orientation`. -/
example : InFace .prism 7 0 ∧ ¬ InFace .prism 7 2 ∧ Leaves .tet 1 2 ∧ (faceOrientation .prism).getD 2 0 = 1 ∧ normal .prism 2 = ![0, -1, 0] := by
  decide

end T8.Tables
