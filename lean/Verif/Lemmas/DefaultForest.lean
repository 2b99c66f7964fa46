/-
Lemmas for C55: the classes of the default scheme as families over the class, and the neighborhood in a forest over a conforming coarse mesh.
-/
import Verif.Lemmas.FaceAcross

namespace T8.Neighbor
open Element T8.LeafNeighbor T8.RTree

variable {S : P4ests}

theorem vertexFaces_lawful : vertexFaces.Lawful (fun _ _ _ _ => False) where
  bounds _ _ _ _ h := h.elim
  refl _ _ _ h := absurd h (Nat.not_lt_zero _)
  trans _ _ _ _ _ _ h := h.elim
  unique _ _ _ _ _ _ _ h := h.elim
  between _ _ _ _ _ _ _ _ h := h.elim
  childIds_sorted _ _ _ _ h := absurd h (Nat.not_lt_zero _)
  childIds_length _ _ _ _ h := absurd h (Nat.not_lt_zero _)
  childIds_mem _ _ _ _ h := absurd h (Nat.not_lt_zero _)
  children _ _ _ _ h := absurd h (Nat.not_lt_zero _)
  childFace _ _ _ _ _ _ h := absurd h (Nat.not_lt_zero _)
  firstDescendantFace _ _ _ _ h := absurd h (Nat.not_lt_zero _)
  lastDescendantFace _ _ _ _ h := absurd h (Nat.not_lt_zero _)

theorem faceClassOf (D : S.Documented) (c : Eclass) :
    FaceClass (schemeOf S c) (facesOf S c) (InOf S c) (parentFaceOf S c) (insideOf S c) := by
  cases c with
  | vertex => exact {
      scheme := Dvertex.scheme_lawful
      faces := vertexFaces_lawful
      parentFace := fun _ _ _ _ h => absurd h (Nat.not_lt_zero _)
      lifts := fun _ _ _ _ _ h => absurd h (Nat.not_lt_zero _)
      back := fun _ _ _ _ _ h => absurd h (Nat.not_lt_zero _) }
  | line => exact Dline.faceClass
  | quad => exact Cube.faceClass .quad S.quad D.1
  | triangle => exact Simplex.faceClass .tri
  | hex => exact Cube.faceClass (.hex S.M S.hM) S.hex D.2
  | tet => exact Simplex.faceClass .tet
  | prism => exact Prism.faceClass
  | pyramid => exact Pyramid.faceClass

theorem insideLawOf (D : S.Documented) (c : Eclass) : LeafNeighbor.Inside (facesOf S c) (InOf S c) (insideOf S c) := by
  cases c with
  | vertex => exact {
      root := fun _ _ _ h => absurd h (Nat.not_lt_zero _)
      outer := fun _ _ _ _ _ _ _ _ h => h.elim
      common := fun _ _ _ _ _ _ _ _ _ _ _ _ h => h.elim }
  | line => exact Dline.insideLaw
  | quad => exact Cube.insideLaw .quad S.quad D.1
  | triangle => exact Simplex.insideLaw .tri
  | hex => exact Cube.insideLaw (.hex S.M S.hM) S.hex D.2
  | tet => exact Simplex.insideLaw .tet
  | prism => exact Prism.insideLaw
  | pyramid => exact Pyramid.insideLaw

theorem proj_emb (c : Eclass) (e : (treeOf S c).E) : proj S c (emb S c e) = some e := by cases c <;> rfl

theorem emb_proj {n : Element} {c : Eclass} (h : n.eclass = c) : ∃ e, n = emb S c e := by
  subst h
  cases n <;> exact ⟨_, rfl⟩

theorem emb_inj (c : Eclass) {e e' : (treeOf S c).E} (h : emb S c e = emb S c e') : e = e' := by
  have := proj_emb (S := S) c e
  rw [h, proj_emb] at this
  exact (Option.some.inj this).symm

theorem emb_eclass (c : Eclass) (e : (treeOf S c).E) : (emb S c e).eclass = c := by cases c <;> rfl

theorem emb_valid (c : Eclass) (e : (treeOf S c).E) : (emb S c e).Valid S ↔ (treeOf S c).Valid e := by cases c <;> exact Iff.rfl

theorem emb_level (c : Eclass) (e : (treeOf S c).E) : (emb S c e).level = (treeOf S c).level e := by cases c <;> rfl

theorem emb_parent (c : Eclass) (e : (treeOf S c).E) : (emb S c e).parent S = emb S c ((treeOf S c).parent e) := by cases c <;> rfl

theorem emb_numFaces (c : Eclass) (e : (treeOf S c).E) : (emb S c e).numFaces = (facesOf S c).numFaces e := by cases c <;> rfl

theorem maxLevel_treeOf (c : Eclass) : (treeOf S c).maxLevel = maxLevel c := by cases c <;> rfl

/-- The faces of the root. -/
theorem emb_root {c : Eclass} {e : (treeOf S c).E} {f F : Nat} : InOf S c e f (treeOf S c).root F ↔
    f < (emb S c e).numFaces ∧ F < c.numFaces ∧ (emb S c e).InRootFace S f F := by
  cases c with
  | vertex => exact ⟨fun h => h.elim, fun h => h.2.2⟩
  | pyramid =>
    have hn : (emb S .pyramid e).numFaces = if 6 ≤ e.type then 5 else 4 := Pyramid.numFaces_eq e
    constructor
    · rintro ⟨h1, h2, h3⟩
      exact ⟨by rw [hn]; exact h1, h2, h3⟩
    · rintro ⟨h1, h2, h3⟩
      exact ⟨by rw [← hn]; exact h1, h2, h3⟩
  | _ => exact Iff.rfl

theorem emb_inFace {c : Eclass} {x e : (treeOf S c).E} {g f : Nat} (h : InOf S c x g e f) (p : Fin 3 → Nat) :
    (emb S c x).InFace S g p → (emb S c e).InFace S f p := by
  cases c with
  | vertex => exact h.elim
  | line => exact fun hp => h.2.2 hp
  | quad => exact fun hp => h.2.2 hp
  | triangle => exact fun hp => h.2.2 hp
  | hex => exact fun hp => h.2.2 hp
  | tet => exact fun hp => h.2.2 hp
  | prism => exact fun hp => h.2.2 hp
  | pyramid => exact fun hp => h.2.2 hp

theorem emb_inside {c : Eclass} {e n : (treeOf S c).E} {f g : Nat} (h : insideOf S c e f = some (n, g)) :
    (emb S c e).neighborInside S f = some (some (emb S c n, g)) := by
  cases c with
  | vertex => cases h
  | line => exact congrArg (fun o : Option (Dline.Line × Nat) => some (o.map fun r => (Element.line r.1, r.2))) h
  | quad => exact congrArg (fun o : Option (Standalone.Elem 2 × Nat) => some (o.map fun r => (Element.quad r.1, r.2))) h
  | triangle => exact congrArg (fun o : Option (Simplex.Elem 2 × Nat) => some (o.map fun r => (Element.triangle r.1, r.2))) h
  | hex => exact congrArg (fun o : Option (Standalone.Elem 3 × Nat) => some (o.map fun r => (Element.hex r.1, r.2))) h
  | tet => exact congrArg (fun o : Option (Simplex.Elem 3 × Nat) => some (o.map fun r => (Element.tet r.1, r.2))) h
  | prism => exact congrArg (fun o : Option (Prism.Prism × Nat) => some (o.map fun r => (Element.prism r.1, r.2))) h
  | pyramid =>
    have := Pyramid.inside_eq.1 h
    show (Pyramid.faceNeighborInside e f).map _ = _
    rw [this]; rfl

variable {dim : Nat} {classes : List Eclass} {joins : List Stash.JoinFace}

theorem class_getElem {g : Nat} (hg : g < classes.length) : classes[g]? = some (classOf classes g) := by
  rw [classOf, List.getD_eq_getElem?_getD, List.getElem?_eq_getElem hg]; rfl

theorem class_of_getElem {g : Nat} {c : Eclass} (h : classes[g]? = some c) : g < classes.length ∧ classOf classes g = c := by
  refine ⟨(List.getElem?_eq_some_iff.1 h).1, ?_⟩
  rw [classOf, List.getD_eq_getElem?_getD, h]; rfl

variable (S dim joins) in
/-- The neighbor inside of the tree. -/
theorem nb_inside (D : S.Documented) {g : Nat} (hg : g < classes.length) {e : (forestTrees S classes g).E}
    (he : (forestTrees S classes g).Valid e) {f : Nat} (hf : f < (facesOf S (classOf classes g)).numFaces e)
    {n : (forestTrees S classes g).E} {k : Nat} (hn : insideOf S (classOf classes g) e f = some (n, k)) :
    forestNeighbor S dim classes joins g e f = some ⟨g, n, k⟩ := by
  have h1 := neighborIn_inside (dim := dim) (joins := joins) D (t := g) (e := emb S _ e) (by omega)
    (by rw [Int.toNat_natCast, emb_eclass]; exact class_getElem hg) ((emb_valid _ e).2 he) (f := f) (by rw [emb_numFaces]; exact hf) (emb_inside hn)
  rw [forestNeighbor, h1]
  simp only [Int.toNat_natCast, proj_emb, Option.map_some]

variable (S dim) in
/-- The neighbor across a face of the tree. -/
theorem nb_across (D : S.Documented) (hC : Conforming dim classes joins) {g : Nat} (hg : g < classes.length) {e : (forestTrees S classes g).E}
    (he : (forestTrees S classes g).Valid e) {f F : Nat} (hin : InOf S _ e f (forestTrees S classes g).root F)
    {t' F' o : Int} (hj : Joined joins g F t' F' o) (hl : (forestTrees S classes g).level e ≤ maxLevel (classOf classes t'.toNat)) :
    t'.toNat < classes.length ∧ ((t'.toNat : Nat) : Int) = t' ∧ ((F'.toNat : Nat) : Int) = F' ∧
    ∃ (n : (forestTrees S classes t'.toNat).E) (k : Nat) (b b' : Element), forestNeighbor S dim classes joins g e f = some ⟨t'.toNat, n, k⟩ ∧
      (forestTrees S classes t'.toNat).Valid n ∧ (forestTrees S classes t'.toNat).level n = (forestTrees S classes g).level e ∧
      InOf S _ n k (forestTrees S classes t'.toNat).root F'.toNat ∧
      (emb S _ e).boundaryFace S f = some b ∧ b.Valid S ∧ b.level = (emb S _ e).level ∧ o.toNat < b.eclass.numVertices ∧
      b.transformFace o.toNat (signOf (classOf classes g) F (classOf classes t'.toNat) F'.toNat)
        (smallerOf (classOf classes g) F (classOf classes t'.toNat) F'.toNat) = some b' ∧
      (emb S _ n).boundaryFace S k = some b' := by
  obtain ⟨c, c', _, h1, h2, h3, h4, h5, h6, h7, h8, _⟩ := hC.joined hj
  obtain ⟨a1, rfl⟩ := class_of_getElem h4
  obtain ⟨i1, i2, i3⟩ := emb_root.1 hin
  obtain ⟨n, k, b, b', r1, r2, r3, r4, r5, r6, r7, r8, r9, r10, r11, r12⟩ :=
    across_boundary D hC (t := g) (e := emb S _ e) (by omega) (by rw [Int.toNat_natCast, emb_eclass]; exact class_getElem hg) ((emb_valid _ e).2 he)
      i1 (by rw [emb_eclass]; exact i2) i3 hj h4 (by rw [emb_level]; exact hl)
  obtain ⟨n, rfl⟩ := emb_proj (S := S) r3
  refine ⟨a1, by omega, by omega, n, k, b, b', ?_, (emb_valid _ n).1 r2, ?_, ?_, r7, r8, r9, r10, ?_, r12⟩
  · rw [forestNeighbor, r1]
    simp only [proj_emb, Option.map_some]
  · rw [emb_level, emb_level] at r4; exact r4
  · exact emb_root.2 ⟨r5, by omega, r6⟩
  · rw [emb_eclass] at r11; exact r11

theorem nb_none (D : S.Documented) {g : Nat} (hg : g < classes.length) {e : (forestTrees S classes g).E}
    (he : (forestTrees S classes g).Valid e) {f F : Nat} (hin : InOf S _ e f (forestTrees S classes g).root F)
    (hj : ∀ t' F' o, ¬ Joined joins g F t' F' o) : forestNeighbor S dim classes joins g e f = none := by
  obtain ⟨i1, i2, i3⟩ := emb_root.1 hin
  rw [forestNeighbor, neighborIn_boundary D (t := g) (e := emb S _ e) (by omega) (by rw [Int.toNat_natCast, emb_eclass]; exact class_getElem hg)
    ((emb_valid _ e).2 he) i1 (by rw [emb_eclass]; exact i2) i3 hj]

theorem neighborIn_back (D : S.Documented) (hC : Conforming dim classes joins) {t : Int} {e : Element} (ht : 0 ≤ t)
    (hc : classes[t.toNat]? = some e.eclass) (he : e.Valid S) {f : Nat} (hf : f < e.numFaces) (hl : ∀ c ∈ classes, e.level ≤ maxLevel c)
    {t' : Int} {n : Element} {k : Nat} (h : neighborIn S (Cmesh.commit dim classes joins) t e f = some (t', n, k)) :
    0 ≤ t' ∧ classes[t'.toNat]? = some n.eclass ∧ neighborIn S (Cmesh.commit dim classes joins) t' n k = some (t, e, f) := by
  rcases C52_face_neighbor_mutual S D hC t e ht hc he f hf with ⟨h1, _⟩ | ⟨nc, h1, h2⟩
  · rw [neighborIn, h1] at h
    cases h
  · have hmem : nc ∈ classes := by
      rw [neighborIn, h1] at h
      rw [neighborEclass, treeClass_commit, if_pos ht, hc] at h1
      simp only [Option.bind_eq_bind, Option.bind_some] at h1
      split_ifs at h1 with hb
      · simp only [Option.some.injEq] at h1
        rw [← h1]
        exact List.mem_of_getElem? hc
      · rw [assertO] at h1
        split_ifs at h1
        · simp only [Option.bind_some] at h1
          rw [Cmesh.faceNeighborClass] at h1
          split at h1
          · cases h1
          · rename_i t'' _ _ _
            rw [treeClass_commit] at h1
            split_ifs at h1
            · cases hx : classes[t''.toNat]? with
              | none => rw [hx] at h1; cases h1
              | some x => rw [hx] at h1; cases h1; exact List.mem_of_getElem? hx
            · cases h1
        · cases h1
    obtain ⟨s', m, j, k1, k2, k3, k4, k5, k6, k7, _, k9, k10⟩ := h2 (hl nc hmem)
    rw [neighborIn, h1] at h
    simp only [k1, Option.join_some, Option.some.injEq, Prod.mk.injEq] at h
    obtain ⟨rfl, rfl, rfl⟩ := h
    refine ⟨k2, by rw [k4]; exact k3, ?_⟩
    rw [neighborIn, k9]
    simp only [k10, Option.join_some]

/-- The neighbors in a forest over a conforming coarse mesh. -/
theorem forest_neighborhood (D : S.Documented) (hC : Conforming dim classes joins) {L : Nat} (hL : ∀ c ∈ classes, L ≤ maxLevel c) :
    GhostSpec.Neighborhood (forestNeighbor S dim classes joins) (fun g => InOf S (classOf classes g)) (fun g => (facesOf S (classOf classes g)).numFaces)
      classes.length L := by
  have C := fun g => faceClassOf D (classOf classes g)
  have I := fun g => insideLawOf D (classOf classes g)
  have hLg : ∀ g, g < classes.length → L ≤ maxLevel (classOf classes g) := fun g hg => hL _ (List.mem_of_getElem? (class_getElem hg))
  -- the three cases
  have cases3 : ∀ g e f, g < classes.length → (forestTrees S classes g).Valid e → f < (facesOf S (classOf classes g)).numFaces e →
      (∃ n k, insideOf S (classOf classes g) e f = some (n, k)) ∨ ∃ F, InOf S _ e f (forestTrees S classes g).root F := by
    intro g e f hg he hf
    cases hi : insideOf S (classOf classes g) e f with
    | none => exact Or.inr (((I g).root e f he hf).1 hi)
    | some r => exact Or.inl ⟨r.1, r.2, rfl⟩
  refine ⟨?_, ?_, ?_, ?_⟩
  · intro g e f n hg he hle hf hn
    rcases cases3 g e f hg he hf with ⟨m, k, hi⟩ | ⟨F, hin⟩
    · rw [nb_inside S dim joins D hg he hf hi] at hn
      cases hn
      obtain ⟨h1, h2, _, h4, _⟩ := (C g).back e f m k he hf hi
      exact ⟨hg, h1, h2, h4⟩
    · by_cases hj : ∃ t' F' o, Joined joins g F t' F' o
      · obtain ⟨t', F', o, hj⟩ := hj
        obtain ⟨c, c', _, h1, h2, h3, h4, _⟩ := hC.joined hj
        obtain ⟨a1, a2⟩ := class_of_getElem h4
        obtain ⟨_, _, _, m, k, b, b', r1, r2, r3, r4, _⟩ := nb_across S dim D hC hg he hin hj (hle.trans (hLg _ a1))
        rw [r1] at hn
        cases hn
        exact ⟨a1, r2, r3, ((C t'.toNat).faces.bounds _ _ _ _ r4).1⟩
      · rw [nb_none D hg he hin (fun t' F' o h => hj ⟨t', F', o, h⟩)] at hn
        cases hn
  · intro g e f hg he hle hf hl0 hno
    obtain ⟨n, k, h1, h2⟩ := (I g).sibling (C g) he hf hl0 hno
    exact ⟨n, k, nb_inside S dim joins D hg he hf h1, h2⟩
  · intro g e f f' hg he hle hf hl0 hin
    have hvp := (forestTrees S classes g).valid_parent e he hl0
    have hlp := (forestTrees S classes g).level_parent e he hl0
    have hf' := ((C g).faces.bounds _ _ _ _ hin).2
    rcases cases3 g _ f' hg hvp hf' with ⟨m, k, hi⟩ | ⟨F, hinF⟩
    · have hnb := nb_inside S dim joins D hg hvp hf' hi
      refine ⟨fun h => (by rw [hnb] at h; cases h), ?_⟩
      intro h m' k' hm
      rw [hnb] at hm
      cases hm
      obtain ⟨n, j, h1, h2, h3⟩ := ((I g).child (C g) he hl0 hin).2 m k hi
      exact ⟨n, j, nb_inside S dim joins D hg he hf h1, h2, h3⟩
    · have hine := (C g).faces.trans _ _ _ _ _ _ hin hinF
      by_cases hj : ∃ t' F' o, Joined joins g F t' F' o
      · obtain ⟨t', F', o, hj⟩ := hj
        obtain ⟨c, c', _, h1, h2, h3, h4, _⟩ := hC.joined hj
        obtain ⟨a1, a2⟩ := class_of_getElem h4
        obtain ⟨_, _, _, n, k, b, b', r1, r2, r3, r4, r5, r6, r7, r8, r9, r10⟩ := nb_across S dim D hC hg he hine hj (hle.trans (hLg _ a1))
        obtain ⟨_, _, _, m, j, pb, pb', s1, s2, s3, s4, s5, s6, s7, s8, s9, s10⟩ :=
          nb_across S dim D hC hg hvp hinF hj (by have := hLg _ a1; omega)
        refine ⟨fun h => (by rw [s1] at h; cases h), ?_⟩
        intro h m' k' hm
        rw [s1] at hm
        cases hm
        refine ⟨n, k, r1, ?_⟩
        -- the parent of the neighbor
        have hln : 0 < (forestTrees S classes t'.toNat).level n := by rw [r3]; exact hl0
        have hvn := (forestTrees S classes t'.toNat).valid_parent n r2 hln
        obtain ⟨q, q1, q2⟩ := (C t'.toNat).faces.between n k _ _ _ (forestTrees S classes t'.toNat).valid_root (desc_root hvn)
          (parent_desc r2 hln) r4
        -- the face elements
        obtain ⟨x1, x2, x3⟩ := emb_root.1 hine
        obtain ⟨y1, y2, y3⟩ := emb_root.1 hinF
        obtain ⟨z1, z2, z3⟩ := emb_root.1 r4
        obtain ⟨w1, w2, w3⟩ := emb_root.1 q1
        obtain ⟨v1, v2, v3⟩ := emb_root.1 s4
        have p1 : (emb S _ ((forestTrees S classes g).parent e)).boundaryFace S f' = some (b.parent S) := by
          have := boundary_parent (f' := f') ((emb_valid _ e).2 he) (by rw [emb_level]; exact hl0) x1 (by rw [emb_eclass]; exact x2) x3
            (by rw [emb_parent]; exact y1) (by rw [emb_parent]; exact y3) (by rw [emb_parent]; exact emb_inFace hin) r5
          rw [emb_parent] at this
          exact this
        have p2 : (emb S _ ((forestTrees S classes t'.toNat).parent n)).boundaryFace S q = some (b'.parent S) := by
          have := boundary_parent (f' := q) ((emb_valid _ n).2 r2) (by rw [emb_level]; exact hln) z1 (by rw [emb_eclass]; exact z2) z3
            (by rw [emb_parent]; exact w1) (by rw [emb_parent]; exact w3) (by rw [emb_parent]; exact emb_inFace q2) r10
          rw [emb_parent] at this
          exact this
        cases s5.symm.trans p1
        have p3 := transform_parent D r6 (by rw [r7, emb_level]; exact hl0) r8 _ _ r9
        cases s9.symm.trans p3
        -- extruding
        obtain ⟨u, u1, _, _, _, u5⟩ := extrude_boundary ((emb_valid _ m).2 s2) v1 (by rw [emb_eclass]; exact v2) v3
        obtain ⟨u', u1', _, _, _, u5'⟩ := extrude_boundary ((emb_valid _ _).2 hvn) w1 (by rw [emb_eclass]; exact w2) w3
        cases s10.symm.trans u1
        cases p2.symm.trans u1'
        rw [emb_eclass] at u5 u5'
        have heq := u5'.symm.trans u5
        simp only [Option.some.injEq, Prod.mk.injEq] at heq
        obtain ⟨heq1, heq2⟩ := heq
        have := emb_inj _ heq1
        exact ⟨this, by rw [← this, ← heq2]; exact q2⟩
      · have hj' := fun t' F' o h => hj ⟨t', F', o, h⟩
        refine ⟨fun _ => nb_none D hg he hine hj', ?_⟩
        intro h m k hm
        rw [nb_none D hg hvp hinF hj'] at hm
        cases hm
  · intro g e f h n j hg he hle hf hn
    rcases cases3 g e f hg he hf with ⟨m, k, hi⟩ | ⟨F, hin⟩
    · rw [nb_inside S dim joins D hg he hf hi] at hn
      cases hn
      obtain ⟨h1, h2, _, h4, h5⟩ := (C g).back e f _ _ he hf hi
      exact nb_inside S dim joins D hg h1 h4 h5
    · by_cases hj : ∃ t' F' o, Joined joins g F t' F' o
      · obtain ⟨t', F', o, hj⟩ := hj
        obtain ⟨c, c', _, h1, h2, h3, h4, _⟩ := hC.joined hj
        obtain ⟨a1, a2⟩ := class_of_getElem h4
        have hr : ∃ s m, neighborIn S (Cmesh.commit dim classes joins) g (emb S _ e) f = some (s, m, j) ∧
            ∃ hs : s.toNat = h, proj S (classOf classes h) m = some n := by
          rw [forestNeighbor] at hn
          split at hn
          · cases hn
          · rename_i s m k heq
            obtain ⟨x, hx1, hx2⟩ := Option.map_eq_some_iff.1 hn
            simp only [BalanceSpec.Neighbor.mk.injEq] at hx2
            obtain ⟨rfl, hx2, rfl⟩ := hx2
            cases hx2
            exact ⟨s, m, heq, rfl, hx1⟩
        obtain ⟨s, m, hr1, rfl, hr2⟩ := hr
        have hlall : ∀ c ∈ classes, (emb S _ e).level ≤ maxLevel c := fun c hc => by rw [emb_level]; exact hle.trans (hL c hc)
        obtain ⟨b1, b2, b3⟩ := neighborIn_back D hC (t := g) (e := emb S _ e) (by omega)
          (by rw [Int.toNat_natCast, emb_eclass]; exact class_getElem hg) ((emb_valid _ e).2 he) (by rw [emb_numFaces]; exact hf) hlall hr1
        obtain ⟨_, b4⟩ := class_of_getElem b2
        obtain ⟨m', hm'⟩ := emb_proj (S := S) (n := m) (c := classOf classes s.toNat) b4.symm
        subst hm'
        rw [proj_emb] at hr2
        cases hr2
        have b5 : ((s.toNat : Nat) : Int) = s := by omega
        rw [forestNeighbor, b5, b3]
        simp only [Int.toNat_natCast, proj_emb, Option.map_some]
      · rw [nb_none D hg he hin (fun t' F' o h => hj ⟨t', F', o, h⟩)] at hn
        cases hn

end T8.Neighbor
