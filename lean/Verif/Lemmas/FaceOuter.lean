/-
Lemmas for C55: at a face of the parent the neighbor of a child is a child of the neighbor of the parent, and at the other faces it is a
sibling. For trees that are not connected with each other.
-/
import Verif.Lemmas.FaceClass
import Verif.Spec.Ghost

namespace T8.LeafNeighbor
open T8.RTree

/-- What is known about the neighbors inside of the tree beyond `FaceClass`. -/
structure Inside {T : RTree} (F : FaceScheme T) (In : T.E → Nat → T.E → Nat → Prop) (neighbor : T.E → Nat → Option (T.E × Nat)) : Prop where
  /-- There is no neighbor exactly at the faces of the root. -/
  root : ∀ e f, T.Valid e → f < F.numFaces e → (neighbor e f = none ↔ ∃ r, In e f T.root r)
  /-- Siblings are not neighbors across a face of the parent. -/
  outer : ∀ e f f' m g, T.Valid e → 0 < T.level e → neighbor e f = some (m, g) → In e f (T.parent e) f' → T.parent m ≠ T.parent e
  /-- Neighbors have the same face. -/
  common : ∀ e f m g a f' b k, T.Valid e → T.Valid a → neighbor e f = some (m, g) → neighbor a f' = some (b, k) → In e f a f' → In m g b k

variable {T : RTree} {S : Scheme T} {F : FaceScheme T} {In : T.E → Nat → T.E → Nat → Prop}
  {parentFace : T.E → Nat → Option Nat} {neighbor : T.E → Nat → Option (T.E × Nat)}

theorem parent_desc {e : T.E} (he : T.Valid e) (hl : 0 < T.level e) : T.Desc (T.parent e) e := by
  have h1 := T.level_parent e he hl
  exact (desc_parent (T.valid_parent e he hl) he (by omega)).2 Desc.refl

/-- Across a face inside of the parent there is a sibling. -/
theorem Inside.sibling (C : FaceClass S F In parentFace neighbor) (I : Inside F In neighbor) {e : T.E} (he : T.Valid e) {f : Nat}
    (hf : f < F.numFaces e) (hl : 0 < T.level e) (hin : ¬ ∃ f', In e f (T.parent e) f') :
    ∃ n k, neighbor e f = some (n, k) ∧ T.parent n = T.parent e := by
  cases hn : neighbor e f with
  | none =>
    obtain ⟨r, hr⟩ := (I.root e f he hf).1 hn
    obtain ⟨k, _, h2⟩ := C.faces.between e f (T.parent e) T.root r T.valid_root (desc_root (T.valid_parent e he hl)) (parent_desc he hl) hr
    exact absurd ⟨k, h2⟩ hin
  | some n =>
    obtain ⟨n, k⟩ := n
    rcases C.lifts e f n k he hf hl hn with h | ⟨f', _, h, _⟩
    · exact ⟨n, k, rfl, h⟩
    · exact absurd ⟨f', h⟩ hin

/-- Across a face of the parent there is a child of the neighbor of the parent. -/
theorem Inside.child (C : FaceClass S F In parentFace neighbor) (I : Inside F In neighbor) {e : T.E} (he : T.Valid e) {f f' : Nat}
    (hl : 0 < T.level e) (hin : In e f (T.parent e) f') :
    (neighbor (T.parent e) f' = none → neighbor e f = none) ∧
    ∀ m k, neighbor (T.parent e) f' = some (m, k) → ∃ n j, neighbor e f = some (n, j) ∧ T.parent n = m ∧ In n j m k := by
  have hf := (C.faces.bounds _ _ _ _ hin).1
  have hf' := (C.faces.bounds _ _ _ _ hin).2
  have hvp := T.valid_parent e he hl
  have hd := parent_desc he hl
  constructor
  · intro h
    obtain ⟨r, hr⟩ := (I.root _ f' hvp hf').1 h
    exact (I.root e f he hf).2 ⟨r, C.faces.trans _ _ _ _ _ _ hin hr⟩
  · intro m k hm
    cases hn : neighbor e f with
    | none =>
      obtain ⟨r, hr⟩ := (I.root e f he hf).1 hn
      obtain ⟨i, h1, h2⟩ := C.faces.between e f (T.parent e) T.root r T.valid_root (desc_root hvp) hd hr
      have := C.faces.unique e f i (T.parent e) f' hvp hd
      have hi : i = f' := by
        have h3 := C.parentFace e f he hl hf
        exact Option.some.inj (((h3 i).2 h2).symm.trans ((h3 f').2 hin))
      subst hi
      rw [(I.root _ i hvp hf').2 ⟨r, h1⟩] at hm
      cases hm
    | some n =>
      obtain ⟨n, j⟩ := n
      rcases C.lifts e f n j he hf hl hn with h | ⟨f'', g', h1, h2⟩
      · exact absurd h (I.outer e f f' n j he hl hn hin)
      · have h3 := C.parentFace e f he hl hf
        have hi : f'' = f' := Option.some.inj (((h3 f'').2 h1).symm.trans ((h3 f').2 hin))
        subst hi
        refine ⟨n, j, rfl, ?_, I.common e f n j _ f'' m k he hvp hn hm hin⟩
        rw [hm] at h2
        exact (congrArg Prod.fst (Option.some.inj h2)).symm

end T8.LeafNeighbor

namespace T8.GhostSpec
open T8.LeafNeighbor T8.BalanceSpec

variable {T : Nat → RTree}

/-- The neighbors in a forest of trees that are not connected with each other. -/
def disconnected (neighbor : ∀ g, (T g).E → Nat → Option ((T g).E × Nat)) : Neighbors T :=
  fun g e f => (neighbor g e f).map fun n => ⟨g, n.1, n.2⟩

theorem disconnected_some {neighbor : ∀ g, (T g).E → Nat → Option ((T g).E × Nat)} {g : Nat} {e : (T g).E} {f h : Nat} {n : (T h).E} {j : Nat}
    (hn : disconnected neighbor g e f = some ⟨h, n, j⟩) : ∃ ht : h = g, neighbor g e f = some (ht ▸ n, j) := by
  obtain ⟨⟨n', j'⟩, h1, h2⟩ := Option.map_eq_some_iff.1 hn
  cases h2
  exact ⟨rfl, h1⟩

/-- The neighbors in trees that are not connected with each other. -/
theorem disconnected_neighborhood {S : ∀ g, Scheme (T g)} {F : ∀ g, FaceScheme (T g)} {In : ∀ g, (T g).E → Nat → (T g).E → Nat → Prop}
    {parentFace : ∀ g, (T g).E → Nat → Option Nat} {neighbor : ∀ g, (T g).E → Nat → Option ((T g).E × Nat)}
    (C : ∀ g, FaceClass (S g) (F g) (In g) (parentFace g) (neighbor g)) (I : ∀ g, Inside (F g) (In g) (neighbor g)) (K L : Nat) :
    Neighborhood (disconnected neighbor) In (fun g => (F g).numFaces) K L where
  valid g e f n hg he _ hf hn := by
    obtain ⟨h, n, j⟩ := n
    obtain ⟨rfl, hn⟩ := disconnected_some hn
    obtain ⟨h1, h2, _, h4, _⟩ := (C h).back e f n j he hf hn
    exact ⟨hg, h1, h2, h4⟩
  inner g e f _ he _ hf hl hin := by
    obtain ⟨n, k, h1, h2⟩ := (I g).sibling (C g) he hf hl hin
    exact ⟨n, k, by rw [disconnected, h1]; rfl, h2⟩
  outer g e f f' _ he _ hf hl hin := by
    obtain ⟨h1, h2⟩ := (I g).child (C g) he hl hin
    constructor
    · intro h
      have h := Option.map_eq_none_iff.1 h
      rw [disconnected, h1 h]
      rfl
    · intro h m k hm
      obtain ⟨rfl, hm⟩ := disconnected_some hm
      obtain ⟨n, j, a1, a2, a3⟩ := h2 m k hm
      exact ⟨n, j, by rw [disconnected, a1]; rfl, a2, a3⟩
  back g e f h n j _ he _ hf hn := by
    obtain ⟨rfl, hn⟩ := disconnected_some hn
    rw [disconnected, ((C h).back e f n j he hf hn).2.2.2.2]
    rfl

end T8.GhostSpec

namespace T8
open T8.LeafNeighbor T8.RTree

theorem Standalone.not_sibling {d M : Nat} (h : 0 < d → M < 31) {e m : Elem d} (he : Valid M e) {f f' g : Nat} (hf : f < numFaces d)
    (hf' : f' < numFaces d) (hl : 0 < e.level) (hn : faceNeighborInside M e f = some (m, g)) (hin : Face M e f ⊆ Face M (parent M e) f') :
    parent M m ≠ parent M e := by
  intro hp
  have h' := small_of h
  have hfd : f / 2 < d := by simp only [numFaces] at hf; omega
  have hfd' : f' / 2 < d := by simp only [numFaces] at hf'; omega
  have hv := (neighbor_mutual h e he f hf m g hn)
  have hm : m = faceNeighbor M e f := by
    rw [faceNeighborInside] at hn
    split at hn
    · simp only [Option.some.injEq, Prod.mk.injEq] at hn
      exact hn.1.symm
    · cases hn
  rcases faceNeighbor_spec h he hfd with ⟨_, h2⟩ | ⟨_, _, _, hax, _⟩
  · rw [faceNeighborInside, h2] at hn; cases hn
  rw [← hm] at hax
  have hs : side M m = side M e := by simp only [side, hv.2.1]
  have hpos := side_pos (M := M) e
  have pe := parent_toNat h' he hl
  have pm := parent_toNat h' hv.1 (by rw [hv.2.1]; exact hl)
  have hnum : f = f' := face_number hfd' (fun i => by
    obtain ⟨a1, _, a3⟩ := pe i
    rw [a3]; omega) hin
  subst hnum
  have h1 := ((face_subset_iff rfl hfd).1 hin).2 ⟨f / 2, hfd⟩ rfl
  have h2 := hax ⟨f / 2, hfd⟩ rfl
  have h3 := pe ⟨f / 2, hfd⟩
  have h4 := pm ⟨f / 2, hfd⟩
  rw [hp, hs] at h4
  rw [h3.2.2] at h1
  split at h2
  · rename_i ho; rw [ho] at h1; omega
  · rename_i ho; rw [show f % 2 = 0 by omega] at h1; omega

theorem Standalone.insideLaw (c : Standalone.Cls) :
    Inside c.faceScheme c.InFace (fun e f => Standalone.faceNeighborInside (d := c.dim) c.maxLevel e f) where
  root e f he hf := by
    refine (Standalone.C10_standalone_inside c e he f hf).trans ⟨fun h => ⟨f, hf, hf, h⟩, ?_⟩
    rintro ⟨r, _, hr, h⟩
    have hr' : r / 2 < c.dim := by simp only [Standalone.numFaces] at hr; omega
    have hd := Standalone.desc_box (d := c.dim) (fun hd => by have := c.small hd; omega) (M := c.maxLevel) (c.tree.valid_root) (desc_root (T := c.tree) he)
    have := Standalone.face_number (M := c.maxLevel) hr' hd h
    subst this
    exact h
  outer e f f' m g he hl hn hin := Standalone.not_sibling c.small he hin.1 hin.2.1 hl hn hin.2.2
  common e f m g a f' b k he ha h1 h2 hin := by
    obtain ⟨_, _, _, p1, p2, _⟩ := Standalone.C10_standalone_mutual c e he f hin.1 m g h1
    obtain ⟨_, _, _, q1, q2, _⟩ := Standalone.C10_standalone_mutual c a ha f' hin.2.1 b k h2
    refine ⟨p1, q1, ?_⟩
    rw [p2, q2]
    exact hin.2.2

theorem Cube.insideLaw (c : Cube.Cls) (P : Cube.P4est c.dim) (D : P.Documented c) :
    Inside (c.faceScheme P) c.InFace (fun e f => Cube.faceNeighborInside P e f) where
  root e f he hf := by
    obtain ⟨h1, _, h3⟩ := Cube.C10_cube_inside c P D e he f hf
    refine h1.trans ⟨fun h => ⟨f, hf, hf, h⟩, ?_⟩
    rintro ⟨r, _, hr, h⟩
    have := h3 r hr h
    replace this : f = r := this
    subst this
    exact h
  outer e f f' m g he hl hn hin := by
    have h31 : 0 < c.dim → c.rootLevel < 31 := c.small
    have h' : Standalone.faceNeighborInside c.rootLevel e f = some (m, g) := (D.neighbor_eq he hin.1).symm.trans hn
    have he' : Cube.Valid c e := he
    exact Standalone.not_sibling h31 he'.1 hin.1 hin.2.1 hl h' hin.2.2
  common e f m g a f' b k he ha h1 h2 hin := by
    obtain ⟨_, _, _, p1, p2, _⟩ := Cube.C10_cube_mutual c P D e he f hin.1 m g h1
    obtain ⟨_, _, _, q1, q2, _⟩ := Cube.C10_cube_mutual c P D a ha f' hin.2.1 b k h2
    refine ⟨p1, q1, ?_⟩
    rw [p2, q2]
    exact hin.2.2

theorem Dline.insideLaw : Inside Dline.faceScheme Dline.InFace Dline.faceNeighborInside where
  root e f he hf := by
    obtain ⟨h1, _, h3⟩ := Dline.C10_line_inside e he f hf
    refine h1.trans ⟨fun h => ⟨f, hf, hf, h⟩, ?_⟩
    rintro ⟨r, _, hr, h⟩
    have := h3 r hr h
    replace this : f = r := this
    subst this
    exact h
  outer e f f' m g he hl hn hin hp := by
    replace he : Dline.Valid e := he
    replace hl : 0 < e.level := hl
    replace hp : Dline.parent m = Dline.parent e := hp
    have hf := hin.1
    obtain ⟨hm, hml, _⟩ := Dline.C10_line_mutual e he f hf m g hn
    have pe := Standalone.parent_toNat (M := Dline.maxLevel) (fun _ => by decide) (Dline.toElem_valid.2 he) hl 0
    have pm := Standalone.parent_toNat (M := Dline.maxLevel) (fun _ => by decide) (Dline.toElem_valid.2 hm) (by show 0 < m.level; omega) 0
    replace pe : (e.x.toNat = (Dline.parent e).x.toNat ∨ e.x.toNat = (Dline.parent e).x.toNat + 2 ^ (Dline.maxLevel - e.level)) ∧
      2 * 2 ^ (Dline.maxLevel - e.level) ∣ (Dline.parent e).x.toNat ∧
      2 ^ (Dline.maxLevel - (Dline.parent e).level) = 2 * 2 ^ (Dline.maxLevel - e.level) := pe
    replace pm : (m.x.toNat = (Dline.parent m).x.toNat ∨ m.x.toNat = (Dline.parent m).x.toNat + 2 ^ (Dline.maxLevel - m.level)) ∧
      2 * 2 ^ (Dline.maxLevel - m.level) ∣ (Dline.parent m).x.toNat ∧
      2 ^ (Dline.maxLevel - (Dline.parent m).level) = 2 * 2 ^ (Dline.maxLevel - m.level) := pm
    rw [hp, hml] at pm
    have hpos := Nat.two_pow_pos (Dline.maxLevel - e.level)
    have hcoord : m.x.toNat + 2 ^ (Dline.maxLevel - e.level) = e.x.toNat + 2 * f * 2 ^ (Dline.maxLevel - e.level) := by
      rcases Dline.neighbor_spec he hf with ⟨_, h2⟩ | ⟨_, n, h2, _, _, h5⟩
      · rw [hn] at h2; cases h2
      · rw [hn] at h2
        simp only [Option.some.injEq, Prod.mk.injEq] at h2
        rw [h2.1]; exact h5
    have hface : e.x.toNat + f * 2 ^ (Dline.maxLevel - e.level) =
        (Dline.parent e).x.toNat + f' * 2 ^ (Dline.maxLevel - (Dline.parent e).level) :=
      hin.2.2 (show e.x.toNat + f * 2 ^ (Dline.maxLevel - e.level) = _ from rfl)
    rw [pe.2.2] at hface
    have h1 : f < 2 := hf
    have h2 : f' < 2 := hin.2.1
    generalize 2 ^ (Dline.maxLevel - e.level) = s at *
    have hf2 : f = 0 ∨ f = 1 := by omega
    have hf2' : f' = 0 ∨ f' = 1 := by omega
    rcases hf2 with rfl | rfl <;> rcases hf2' with rfl | rfl <;> omega
  common e f m g a f' b k he ha h1 h2 hin := by
    obtain ⟨_, _, _, p1, p2, _⟩ := Dline.C10_line_mutual e he f hin.1 m g h1
    obtain ⟨_, _, _, q1, q2, _⟩ := Dline.C10_line_mutual a ha f' hin.2.1 b k h2
    refine ⟨p1, q1, ?_⟩
    rw [p2, q2]
    exact hin.2.2

theorem Simplex.insideLaw (c : Simplex.Cls) : LeafNeighbor.Inside (Simplex.faceScheme c) (Simplex.InFace c) (Simplex.faceNeighborInside c) where
  root e f he hf := by
    obtain ⟨h1, _, _⟩ := Simplex.C10_simplex_inside c e he f hf
    exact h1.trans ⟨fun ⟨r, hr, h⟩ => ⟨r, hf, hr, h⟩, fun ⟨r, _, hr, h⟩ => ⟨r, hr, h⟩⟩
  outer e f f' m g he hl hn hin := by
    have hl' : 0 < e.level := hl
    have ha := Simplex.Valid.aligned he
    have hpf := (Simplex.parentFace_iff he hl' hin.1 f').2 ⟨hin.2.1, hin.2.2⟩
    have hi : Simplex.isInsideRoot c (Simplex.faceNeighbour c e f).1 = true := by
      by_contra hc
      rw [Simplex.faceNeighborInside, if_neg hc] at hn
      cases hn
    rw [Simplex.faceNeighborInside, if_pos hi] at hn
    have hm : Simplex.nbr e f = m := congrArg Prod.fst (Option.some.inj hn)
    have hv := (Simplex.inside_neighbour_iff ha hin.1).1 hi
    have hpe := Simplex.parentFaceOf_eq (c := c) hl' f
    rw [hpf] at hpe
    obtain ⟨hF, hp⟩ := Simplex.nbr_parent_some ha hl' hin.1 hv.aligned hpe.symm
    have hml : 0 < (Simplex.nbr e f).level := by rw [Simplex.nbr_level ha hin.1]; exact hl'
    have hpv := Simplex.valid_parent hv hml
    have hi' : Simplex.isInsideRoot c (Simplex.faceNeighbour c (Simplex.parent c e) f').1 = true := by
      refine (Simplex.inside_neighbour_iff (Simplex.aligned_parent ha hl') hF).2 ?_
      rw [show Simplex.parent c (Simplex.faceNeighbour c e f).1 = (Simplex.faceNeighbour c (Simplex.parent c e) f').1 from hp] at hpv
      exact hpv
    have := (Simplex.C10_simplex_mutual c (Simplex.parent c e) ((Simplex.tree c).valid_parent e he hl) f' hF
      (Simplex.faceNeighbour c (Simplex.parent c e) f').1 (Simplex.faceNeighbour c (Simplex.parent c e) f').2
      (by rw [Simplex.faceNeighborInside, if_pos hi'])).2.2.1
    intro hc
    apply this
    rw [← hm] at hc
    exact hp.symm.trans hc
  common e f m g a f' b k he ha h1 h2 hin := by
    obtain ⟨_, _, _, p1, p2, _⟩ := Simplex.C10_simplex_mutual c e he f hin.1 m g h1
    obtain ⟨_, _, _, q1, q2, _⟩ := Simplex.C10_simplex_mutual c a ha f' hin.2.1 b k h2
    refine ⟨p1, q1, ?_⟩
    rw [p2, q2]
    exact hin.2.2

theorem Pyramid.insideLaw : Inside Pyramid.faceSchemeRepaired Pyramid.InFace Pyramid.inside where
  root e f he hf := by
    have hf' : f < Pyramid.nf e.type := by rw [← Pyramid.numFaces_eq]; exact hf
    obtain ⟨h1, _, _⟩ := Pyramid.C10_pyramid_inside e he f hf
    obtain ⟨r, hr, _⟩ := Pyramid.C10_pyramid_mutual e he f hf
    rw [hr] at h1
    have h2 : Pyramid.inside e f = r := by rw [Pyramid.inside, hr]; rfl
    rw [h2]
    have h3 : r = none ↔ ∃ g, g < 5 ∧ Pyramid.Face e f ⊆ Pyramid.Face Pyramid.root g :=
      ⟨fun h => h1.1 (by rw [h]), fun h => Option.some.inj (h1.2 h)⟩
    exact h3.trans ⟨fun ⟨r, hr, h⟩ => ⟨r, hf', hr, h⟩, fun ⟨r, _, hr, h⟩ => ⟨r, hr, h⟩⟩
  outer e f f' m g he hl hn hin := by
    have hl' : 0 < e.level := hl
    have hpf := (Pyramid.parentFace_iff he hl' hin.1 f').2 ⟨hin.2.1, hin.2.2⟩
    obtain ⟨hF, j, hj⟩ := (Pyramid.parent_neighbor he hin.1 hl' hn).2 f' hpf
    obtain ⟨r, hr, hr'⟩ := Pyramid.C10_pyramid_mutual (Pyramid.parent e) (Pyramid.tree.valid_parent e he hl) f'
      (by rw [Pyramid.numFaces_eq]; exact hF)
    have hi := Pyramid.inside_eq.1 hj
    rw [hr] at hi
    exact (hr' _ _ (Option.some.inj hi)).2.2.1
  common e f m g a f' b k he ha h1 h2 hin := by
    obtain ⟨r, hr, hr'⟩ := Pyramid.C10_pyramid_mutual e he f (by rw [Pyramid.numFaces_eq]; exact hin.1)
    obtain ⟨s, hs, hs'⟩ := Pyramid.C10_pyramid_mutual a ha f' (by rw [Pyramid.numFaces_eq]; exact hin.2.1)
    have hi := Pyramid.inside_eq.1 h1
    rw [hr] at hi
    have hj := Pyramid.inside_eq.1 h2
    rw [hs] at hj
    obtain ⟨_, _, _, p1, p2, _⟩ := hr' _ _ (Option.some.inj hi)
    obtain ⟨_, _, _, q1, q2, _⟩ := hs' _ _ (Option.some.inj hj)
    rw [Pyramid.numFaces_eq] at p1 q1
    refine ⟨p1, q1, ?_⟩
    rw [p2, q2]
    exact hin.2.2

theorem Prism.insideLaw : Inside Prism.faceScheme Prism.InFace Prism.faceNeighborInside where
  root e f he hf := by
    obtain ⟨h1, _, _⟩ := Prism.C10_prism_inside e he f hf
    exact h1.trans ⟨fun ⟨r, hr, h⟩ => ⟨r, hf, hr, h⟩, fun ⟨r, _, hr, h⟩ => ⟨r, hr, h⟩⟩
  outer e f f' m g he hl hn hin := by
    replace he : Prism.Valid e := he
    replace hl : 0 < Prism.level e := hl
    have hf' : f < 5 := hin.1
    have hl1 : 0 < e.1.level := by rw [Prism.tri_level he]; exact hl
    have hd : Prism.tree.Desc (Prism.parent e) e := parent_desc (T := Prism.tree) he hl
    have hn := (Prism.neighbor_eq he hf').symm.trans hn
    rcases (Prism.inFace_iff (Prism.valid_parent he hl) hd).1 hin with ⟨h3, _, hi⟩ | ⟨h3, _, hi⟩
    · rw [if_pos h3, Option.map_eq_some_iff] at hn
      obtain ⟨⟨m', g'⟩, hm, hmn⟩ := hn
      simp only [Prod.mk.injEq] at hmn
      obtain ⟨rfl, rfl⟩ := hmn
      intro hc
      exact (Simplex.insideLaw .tri).outer e.1 f f' m' g' he.1 hl1 hm hi (congrArg Prod.fst hc)
    · rw [if_neg (by omega), Option.map_eq_some_iff] at hn
      obtain ⟨⟨m', g'⟩, hm, hmn⟩ := hn
      simp only [Prod.mk.injEq] at hmn
      obtain ⟨rfl, rfl⟩ := hmn
      intro hc
      exact Dline.insideLaw.outer e.2 (f - 3) (f' - 3) m' g' he.2.1 hl hm hi (congrArg Prod.snd hc)
  common e f m g a f' b k he ha h1 h2 hin := by
    obtain ⟨_, _, _, p1, p2, _⟩ := Prism.C10_prism_mutual e he f hin.1 m g h1
    obtain ⟨_, _, _, q1, q2, _⟩ := Prism.C10_prism_mutual a ha f' hin.2.1 b k h2
    refine ⟨p1, q1, ?_⟩
    rw [p2, q2]
    exact hin.2.2

end T8
