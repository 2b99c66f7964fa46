/-
C55 for forests over a committed coarse mesh with the element classes of the default scheme.
-/
import Verif.Props.Ghost
import Verif.Lemmas.DefaultForest

namespace T8.Neighbor
open T8.RTree T8.Spec T8.Ghost T8.GhostSpec

variable {S : P4ests} {dim : Nat} {classes : List Eclass} {joins : List Stash.JoinFace}

/-- The functions of the default scheme and the face neighbors of a forest over the committed coarse mesh. -/
def defaultEnv (S : P4ests) (dim : Nat) (classes : List Eclass) (joins : List Stash.JoinFace) (A : Owner.Tables) (rank : Int) :
    Env (forestTrees S classes) where
  scheme g := schemeOf S (classOf classes g)
  faces g := facesOf S (classOf classes g)
  parentFace g := parentFaceOf S (classOf classes g)
  maxNumFaces g := maxNumFacesOf S (classOf classes g)
  neighbor := forestNeighbor S dim classes joins
  tables := A
  rank := rank

/-- Descendants of tetrahedra are tetrahedra. -/
theorem pyramid_desc_tet {a : Pyramid.Elem} (ha : Pyramid.tree.Valid a) (ht : ¬ 6 ≤ a.type) :
    ∀ {e : Pyramid.tree.E}, Pyramid.tree.Desc (show Pyramid.tree.E from a) e → ¬ 6 ≤ Pyramid.Elem.type e := by
  intro e hd
  induction hd with
  | refl => exact ht
  | @step x i hd hl hi ih =>
    have hx : Pyramid.Valid x := hd.valid ha
    have hg := Pyramid.Valid.good hx
    replace hi : i < Pyramid.numChildren x := hi
    show ¬ 6 ≤ (Pyramid.child x i).type
    rw [Pyramid.child_tet ih]
    rw [Pyramid.numChildren_eq, if_neg ih] at hi
    have : Simplex.Elem.type (Simplex.child .tet (Pyramid.Elem.tet x) i) < 6 := (Simplex.aligned_child (hg.aligned ih) hl hi).2
    show ¬ 6 ≤ Simplex.Elem.type (Simplex.child .tet (Pyramid.Elem.tet x) i)
    omega

theorem pyramid_max {a e : Pyramid.Elem} (h : ¬ 6 ≤ a.type → ¬ 6 ≤ e.type) : Pyramid.numFaces e ≤ Pyramid.numFaces a := by
  rw [Pyramid.numFaces, Pyramid.numFaces]
  by_cases h6 : 6 ≤ a.type
  · rw [if_pos ((Pyramid.isPyra_iff a).2 h6)]
    split <;> omega
  · rw [if_neg (by rw [Pyramid.isPyra_iff]; exact h h6), if_neg (by rw [Pyramid.isPyra_iff]; exact h6)]

theorem max_faces (c : Eclass) {a e : (treeOf S c).E} (ha : (treeOf S c).Valid a) (hd : (treeOf S c).Desc a e) :
    (facesOf S c).numFaces e ≤ maxNumFacesOf S c a := by
  cases c with
  | pyramid => exact pyramid_max fun h => pyramid_desc_tet ha h hd
  | vertex => exact le_rfl
  | line => exact le_rfl
  | quad => exact le_rfl
  | triangle => exact le_rfl
  | hex => exact le_rfl
  | tet => exact le_rfl
  | prism => exact le_rfl

theorem line_parentFace {e : Dline.Line} {f k : Nat} (h : Dline.faceParentFace e f = some k) : k = f := by
  rw [Dline.faceParentFace] at h
  split_ifs at h <;> exact (Option.some.inj h).symm

theorem cube_parentFace {c : Cube.Cls} {P : Cube.P4est c.dim} {e : Standalone.Elem c.dim} {f k : Nat}
    (h : Cube.faceParentFace c P e f = some k) : k = f := by
  rw [Cube.faceParentFace] at h
  split_ifs at h <;> exact (Option.some.inj h).symm

theorem tri_parentFace {e : Simplex.Elem 2} {f k : Nat} (h : Simplex.faceParentFace .tri e f = some k) : k = f := by
  simp only [Simplex.faceParentFace] at h
  split_ifs at h <;> exact (Option.some.inj h).symm

theorem prism_parentFace {e : Prism.Prism} {f k : Nat} (h : Prism.faceParentFace e f = some k) : k = f := by
  rw [Prism.faceParentFace] at h
  split_ifs at h <;> exact (Option.some.inj h).symm

theorem tet_parentFace {e : Simplex.Elem 3} {f k : Nat} (hf : f < 4) (h : Simplex.faceParentFace .tet e f = some k) : k < 4 := by
  simp only [Simplex.faceParentFace] at h
  split_ifs at h with h1 h2 h3 h4
  · exact Option.some.inj h ▸ hf
  · exact Option.some.inj h ▸ hf
  · rcases h4 with rfl | rfl <;> exact Option.some.inj h ▸ (by decide)
  · exact Option.some.inj h ▸ hf

theorem pyramid_parentFace {e : Pyramid.Elem} {f k : Nat} (hf : f < Pyramid.numFaces e) (h : Pyramid.faceParentFace e f = some k) :
    k < Pyramid.numFaces e := by
  have h4 : 4 ≤ Pyramid.numFaces e := by rw [Pyramid.numFaces]; split <;> omega
  rw [Pyramid.faceParentFace] at h
  simp only at h
  split_ifs at h
  all_goals first
    | exact Option.some.inj h ▸ hf
    | (have := Option.some.inj h; omega)
    | skip
  rename_i hp _
  rw [Pyramid.numFaces, if_neg hp] at hf
  have := tet_parentFace hf h
  omega

theorem parentFace_bound (c : Eclass) {e : (treeOf S c).E} {f k : Nat} (hf : f < (facesOf S c).numFaces e)
    (h : parentFaceOf S c e f = some k) : k < maxNumFacesOf S c e := by
  cases c with
  | vertex => cases h
  | line => exact line_parentFace h ▸ hf
  | quad => exact cube_parentFace (c := .quad) h ▸ hf
  | triangle => exact tri_parentFace h ▸ hf
  | hex => exact cube_parentFace (c := .hex S.M S.hM) h ▸ hf
  | tet => exact tet_parentFace hf h
  | prism => exact prism_parentFace h ▸ hf
  | pyramid => exact pyramid_parentFace hf h

/-- The functions of the default scheme fit together, and those of different trees, too. -/
theorem default_lawful (D : S.Documented) (hC : Conforming dim classes joins) {L : Nat} (hL : ∀ c ∈ classes, L ≤ maxLevel c)
    (A : Owner.Tables) (rank : Int) :
    (defaultEnv S dim classes joins A rank).Lawful (fun g => InOf S (classOf classes g)) classes.length L where
  scheme _ := (faceClassOf D _).scheme
  faces _ := (faceClassOf D _).faces
  parentFace _ := (faceClassOf D _).parentFace
  maxNumFaces g _ _ := max_faces (classOf classes g)
  parentFace_lt g _ _ _ _ := parentFace_bound (classOf classes g)
  neighbors := forest_neighborhood D hC hL

variable {P L : Nat} {D : DistForest (forestTrees S classes) P classes.length L} {A : Owner.Tables}

theorem default_setting (hS : S.Documented) (hC : Conforming dim classes joins) (hD : D.Complete) (hA : Owner.Matches D A)
    (hlen : P < A.firstDescs.length) {p : Nat} (hp : p < P) :
    Setting (defaultEnv S dim classes joins A p) (fun g => InOf S (classOf classes g)) D p where
  lawful := by
    refine default_lawful hS hC (fun c hc => ?_) A p
    obtain ⟨g, hg, rfl⟩ := List.getElem_of_mem hc
    have h := D.maxLevel g hg
    rw [maxLevel_treeOf, (class_of_getElem (List.getElem?_eq_getElem hg)).2] at h
    exact h
  complete := hD
  arrays := hA
  firstDescs := hlen
  rank := rfl
  process := hp

/-- **C55** for the default scheme and conforming coarse meshes, for forests whose trees are covered by leaves: every process collects for
each other process exactly its leaves that share a face with a leaf of that process, also across the faces of trees, each of them once,
in order and with its index.

What is missing: the array of first descendants must have more entries than the library creates (see C27), and the number of children
at the faces of pyramids must be that of `Pyramid.faceSchemeRepaired` (see C14). -/
theorem C55_default_partial (hS : S.Documented) (hC : Conforming dim classes joins) (hD : D.Complete) (hA : Owner.Matches D A)
    (hlen : P < A.firstDescs.length) {p : Nat} (hp : p < P) {trees : List (Populate.LocalTree (forestTrees S classes))}
    (hst : Stores D p trees) :
    ∃ G, fillRemoteV3 (defaultEnv S dim classes joins A p) trees = some G ∧
      (∀ q : Nat, G.sent q = mustSend (defaultEnv S dim classes joins A p) (fun g => InOf S (classOf classes g)) D p trees q) ∧
      ∀ q ∈ G.processes, 0 ≤ q ∧ q < P := by
  obtain ⟨G, h1, _, h3, h4⟩ := C55_fill_remote_partial (default_setting hS hC hD hA hlen hp) hst
  exact ⟨G, h1, h3, h4⟩

/-- **C55** for the default scheme: the other processes in the ghost structure of a process are those which have this process in theirs. -/
theorem C55_default_processes_partial (hS : S.Documented) (hC : Conforming dim classes joins) (hD : D.Complete) (hA : Owner.Matches D A)
    (hlen : P < A.firstDescs.length) {trees : Nat → List (Populate.LocalTree (forestTrees S classes))}
    (hst : ∀ p, p < P → Stores D p (trees p)) {G : Nat → Remotes (forestTrees S classes)}
    (hG : ∀ p : Nat, p < P → fillRemoteV3 (defaultEnv S dim classes joins A p) (trees p) = some (G p)) {p q : Nat} (hp : p < P) (hq : q < P) :
    (q : Int) ∈ (G p).processes ↔ (p : Int) ∈ (G q).processes :=
  C55_processes_partial (X := defaultEnv S dim classes joins A 0) (Y := fun p : Nat => defaultEnv S dim classes joins A p)
    (fun _ hp => default_setting hS hC hD hA hlen hp) (fun _ _ => ⟨rfl, rfl⟩) hst hG hp hq

end T8.Neighbor

/-! ### A concrete case -/

namespace T8.Neighbor.GhostExample
open T8.RTree T8.Spec T8.Ghost T8.GhostSpec

abbrev classes : List Eclass := [.prism, .pyramid]
abbrev joins : List Stash.JoinFace := [⟨0, 1, 0, 4, 2⟩]
abbrev T (S : P4ests) : Nat → RTree := forestTrees S classes

theorem conforming : Conforming 3 classes joins := by
  refine ⟨by decide, by decide, ?_, by decide⟩
  intro j hj
  simp only [List.mem_cons, List.not_mem_nil, or_false] at hj
  subst hj
  exact ⟨.prism, .pyramid, .quad, by decide⟩

variable (S : P4ests)

theorem maxLevel_pos {g : Nat} (hg : g < 2) : 1 ≤ (T S g).maxLevel := by
  obtain rfl | rfl : g = 0 ∨ g = 1 := by omega
  · exact (by decide : 1 ≤ Prism.tree.maxLevel)
  · exact (by decide : 1 ≤ Pyramid.tree.maxLevel)

theorem level_le {g : Nat} (hg : g < 2) : (T S g).level (T S g).root + g ≤ (T S g).maxLevel := by
  have := maxLevel_pos S hg
  rw [(T S g).level_root]
  omega

theorem tiles {g : Nat} (hg : g < 2) : (T S g).Tiles (T S g).root ((T S g).uniform (T S g).root g) :=
  Tiles.uniform (T S g).valid_root (level_le S hg)

/-- A prism that is a leaf and a pyramid with ten leaves, on two processes. -/
def D : DistForest (T S) 2 2 1 where
  leaves g := (T S g).uniform (T S g).root g
  ordered g hg := (tiles S hg).ordered (T S g).valid_root
  nonempty g hg := (tiles S hg).ne_nil (T S g).valid_root
  level_le g hg x hx := by
    have := ((mem_uniform (T S g).valid_root (level_le S hg)).1 hx).2
    rw [(T S g).level_root] at this
    omega
  maxLevel g hg := maxLevel_pos S hg
  part := ⟨fun p => [0, 1, 11].getD p 11, by decide, rfl, rfl, by decide⟩

def R : TreePartition ((2 : Nat) : Int) ((2 : Nat) : Int) where
  first := fun p => if p ≤ 0 then 0 else 1
  last := fun p => if p ≤ 0 then 0 else 1
  pos := by decide
  first_zero := by decide
  last_top := by decide
  nonneg := by intro p h0 h1; split_ifs <;> omega
  len := by intro p h0 h1; split_ifs <;> omega
  next := by intro p h0 h1; split_ifs <;> omega

/-- The arrays of this forest; the array of first descendants has one more entry. -/
def A : Owner.Tables := ⟨2, 2, 1, [0, 1, 2], [0, 1, 11], [0, 0, 0]⟩

theorem R_encodes : R.Encodes A.treeOffsets := by
  have hs : ∀ p : Int, 0 ≤ p → p < 2 → ¬ R.SharesFirst p := by
    intro p h0 h1
    rw [R.sharesFirst_iff h0 h1]
    simp only [R]
    split_ifs <;> omega
  refine ⟨by decide, ?_, by decide⟩
  intro p h0 h1
  have h1' : p < 2 := h1
  have := hs p h0 h1'
  obtain rfl | rfl : p = 0 ∨ p = 1 := by omega
  all_goals simp [this]; decide

/-- The children of the pyramid. -/
def q (i : Nat) : (T S 1).E := (T S 1).child (T S 1).root i

theorem local0 : (D S).localLeaves 0 = [⟨0, (T S 0).root⟩] := rfl
theorem local1 : (D S).localLeaves 1 = (List.range 10).map (fun i => ⟨1, q S i⟩) := rfl

theorem mem_tree {g : Nat} {l : List (Σ g, (T S g).E)} : (∃ x, ⟨g, x⟩ ∈ l) ↔ g ∈ l.map Sigma.fst := by
  rw [List.mem_map]
  constructor
  · rintro ⟨x, hx⟩; exact ⟨_, hx, rfl⟩
  · rintro ⟨⟨_, x⟩, hx, rfl⟩; exact ⟨x, hx⟩

theorem matches_arrays : Owner.Matches (D S) A := by
  refine ⟨rfl, rfl, rfl, ⟨R, R_encodes, ?_⟩, rfl, ?_⟩
  · intro p g
    by_cases hp : p < 2
    · obtain rfl | rfl : p = 0 ∨ p = 1 := by omega
      · rw [mem_tree, local0]; simp [TreePartition.Owns, R]
      · rw [mem_tree, local1, List.map_map, List.mem_map]
        simp [TreePartition.Owns, R]
        have : ∃ x : Nat, x < 10 := ⟨0, by decide⟩
        simp only [this, true_and]
        omega
    · constructor
      · intro h; have := h.2.1; omega
      · rintro ⟨h, _⟩; omega
  · intro p hp
    obtain rfl | rfl : p = 0 ∨ p = 1 := by omega
    · refine ⟨0, rfl, ?_⟩
      rw [local0]
      rintro y ⟨⟩
      rfl
    · refine ⟨0, rfl, ?_⟩
      rw [local1]
      rintro y ⟨⟩
      rfl

/-- The trees of the processes. -/
def trees : Nat → List (Populate.LocalTree (T S))
  | 0 => [⟨0, 0, [(T S 0).root]⟩]
  | _ => [⟨1, 1, (List.range 10).map (q S)⟩]

theorem stores {p : Nat} (hp : p < 2) : Stores (D S) p (trees S p) := by
  obtain rfl | rfl : p = 0 ∨ p = 1 := by omega
  all_goals exact ⟨rfl, by simp [trees], by simp [trees]⟩

/-- The hypotheses of C55 are met. -/
theorem fill_example (hS : S.Documented) : ∃ G, fillRemoteV3 (defaultEnv S 3 classes joins A 1) (trees S 1) = some G ∧
    ∀ r : Nat, G.sent r = mustSend (defaultEnv S 3 classes joins A 1) (fun g => InOf S (classOf classes g)) (D S) 1 (trees S 1) r := by
  obtain ⟨G, h1, h3, _⟩ := C55_default_partial (D := D S) hS conforming (fun _ hg => tiles S hg) (matches_arrays S) (by decide) (p := 1)
    (by decide) (stores S (by decide))
  exact ⟨G, h1, h3⟩

/-- The first child of the pyramid shares a face with the prism. -/
theorem shares_example (hS : S.Documented) : SharesFace (forestNeighbor S 3 classes joins) (fun g => InOf S (classOf classes g))
    (fun g => (facesOf S (classOf classes g)).numFaces) ⟨1, q S 0⟩ ⟨0, (T S 0).root⟩ := by
  obtain ⟨n, k, h⟩ : ∃ n k, neighborIn S (Cmesh.commit 3 classes joins) 1 (.pyramid (Pyramid.child Pyramid.root 0)) 4 =
      some (0, .prism n, k) := ⟨_, _, rfl⟩
  have h : forestNeighbor S 3 classes joins 1 (q S 0) 4 = some ⟨0, n, k⟩ := by
    have h' : neighborIn S (Cmesh.commit 3 classes joins) ((1 : Nat) : Int) (emb S _ (q S 0)) 4 = some (0, .prism n, k) := h
    rw [forestNeighbor, h']
    rfl
  have hf : 4 < Pyramid.numFaces (Pyramid.child Pyramid.root 0) := by decide
  have hl := (default_setting (D := D S) hS conforming (fun _ hg => tiles S hg) (matches_arrays S) (by decide) (p := 1) (by decide)).lawful
  have hv := (leaf_facts (D := D S) (p := 1) (y := ⟨1, q S 0⟩) (by decide) (by rw [local1]; exact List.mem_map.2 ⟨0, by decide, rfl⟩))
  exact ⟨4, ⟨0, n, k⟩, hf, h, rfl, Or.inl (desc_root (hl.neighbors.valid 1 (q S 0) 4 _ (by decide) hv.2.1 hv.2.2 hf h).2.1)⟩

/-- So it is sent to process 0. -/
theorem sent_example (hS : S.Documented) : (⟨1, q S 0, 0⟩ : Sent (T S)) ∈
    mustSend (defaultEnv S 3 classes joins A 1) (fun g => InOf S (classOf classes g)) (D S) 1 (trees S 1) 0 := by
  classical
  refine List.mem_filter.2 ⟨?_, decide_eq_true ⟨by decide, by decide, ⟨0, (T S 0).root⟩, ?_, shares_example S hS⟩⟩
  · exact List.mem_flatMap.2 ⟨_, List.mem_singleton.2 rfl, List.mem_map.2 ⟨(q S 0, 0), by simp [List.range_succ_eq_map], rfl⟩⟩
  · rw [local0]
    simp

end T8.Neighbor.GhostExample
