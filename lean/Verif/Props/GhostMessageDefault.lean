/-
C56 for forests over a committed coarse mesh with the element classes of the default scheme.
-/
import Verif.Props.GhostMessage
import Verif.Props.GhostDefault
import Verif.Model.ElementBytes

namespace T8.Neighbor
open T8.RTree T8.Spec T8.Ghost T8.GhostSpec

variable {S : P4ests} {dim : Nat} {classes : List Eclass} {joins : List Stash.JoinFace}

theorem unpack_pack : ∀ (l : Fields), (∀ p ∈ l, p.2 < 256 ^ p.1) → unpack (l.map Prod.fst) (pack l) = l.map Prod.snd
  | [], _ => rfl
  | p :: l, h => by
    have hp : pack (p :: l) = toBytes p.1 p.2 ++ pack l := by rw [pack, List.flatMap_cons]; rfl
    rw [List.map_cons, unpack, hp, List.take_append_of_le_length (by rw [length_toBytes]), List.take_of_length_le (by rw [length_toBytes]),
      List.drop_append_of_le_length (by rw [length_toBytes]), List.drop_of_length_le (by rw [length_toBytes]), List.nil_append,
      unpack_pack l (fun q hq => h q (by simp [hq])), ofBytes_toBytes (h p (by simp)), List.map_cons]

theorem widths_eq (c : Eclass) (e : (treeOf S c).E) : (fieldsOf S c e).map Prod.fst = widthsOf c := by
  cases c <;> rfl

theorem length_pack (l : Fields) : (pack l).length = (l.map Prod.fst).sum := by
  induction l with
  | nil => rfl
  | cons p l ih =>
    have hp : pack (p :: l) = toBytes p.1 p.2 ++ pack l := by rw [pack, List.flatMap_cons]; rfl
    rw [hp, List.length_append, length_toBytes, ih, List.map_cons, List.sum_cons]

theorem cube_bound {d M : Nat} {e : Standalone.Elem d} (h : Standalone.Valid M e) (hM : M ≤ 30) : e.level < 256 := by
  have := h.1
  omega

theorem bv_bound (x : BitVec 32) : x.toNat < 256 ^ 4 := x.isLt

theorem level_bound (c : Eclass) (e : (treeOf S c).E) (he : (treeOf S c).Valid e) : (treeOf S c).level e < 256 := by
  have h := (treeOf S c).level_le e he
  rw [maxLevel_treeOf] at h
  have := S.hM
  have hm : maxLevel c < 256 := by
    cases c <;> first | decide | skip
  omega

/-- The bounds for the members that are not coordinates. -/
theorem line_bound {l : Dline.Line} (h : l.level < 256) : ∀ p ∈ lineFields l, p.2 < 256 ^ p.1 := by
  intro p hp
  simp only [lineFields, List.mem_cons, List.not_mem_nil, or_false] at hp
  rcases hp with rfl | rfl | rfl
  · exact bv_bound _
  · simpa using h
  · decide

theorem tri_bound {t : Simplex.Elem 2} (h : t.level < 256) (ht : t.type < 256) : ∀ p ∈ triFields t, p.2 < 256 ^ p.1 := by
  intro p hp
  simp only [triFields, List.mem_cons, List.not_mem_nil, or_false] at hp
  rcases hp with rfl | rfl | rfl | rfl | rfl
  · simpa using h
  · simpa using ht
  · decide
  all_goals exact bv_bound _

theorem tet_bound {t : Simplex.Elem 3} (h : t.level < 256) (ht : t.type < 256) : ∀ p ∈ tetFields t, p.2 < 256 ^ p.1 := by
  intro p hp
  simp only [tetFields, List.mem_cons, List.not_mem_nil, or_false] at hp
  rcases hp with rfl | rfl | rfl | rfl | rfl | rfl
  · simpa using h
  · simpa using ht
  · decide
  all_goals exact bv_bound _

theorem fields_bound (c : Eclass) (e : (treeOf S c).E) (he : (treeOf S c).Valid e) : ∀ p ∈ fieldsOf S c e, p.2 < 256 ^ p.1 := by
  have hl := level_bound c e he
  cases c with
  | vertex =>
    intro p hp
    simp only [fieldsOf, List.mem_singleton] at hp
    subst hp
    show Dvertex.Vertex.level e < 256 ^ 1
    rw [pow_one]
    exact hl
  | line => exact line_bound hl
  | quad =>
    intro p hp
    simp only [fieldsOf, List.mem_cons, List.not_mem_nil, or_false] at hp
    rcases hp with rfl | rfl | rfl | rfl | rfl
    · exact bv_bound _
    · exact bv_bound _
    · show Standalone.Elem.level e < 256 ^ 1
      rw [pow_one]
      exact hl
    · decide
    · decide
  | triangle =>
    have hv : Simplex.Valid .tri e := he
    have : Simplex.Elem.type e < 2 := hv.2.1
    exact tri_bound hl (by omega)
  | hex =>
    intro p hp
    simp only [fieldsOf, List.mem_cons, List.not_mem_nil, or_false] at hp
    rcases hp with rfl | rfl | rfl | rfl | rfl | rfl
    · exact bv_bound _
    · exact bv_bound _
    · exact bv_bound _
    · show Standalone.Elem.level e < 256 ^ 1
      rw [pow_one]
      exact hl
    · decide
    · decide
  | tet =>
    have hv : Simplex.Valid .tet e := he
    have : Simplex.Elem.type e < 6 := hv.2.1
    exact tet_bound hl (by omega)
  | prism =>
    obtain ⟨t, l⟩ := e
    have hv : Prism.Valid (t, l) := he
    have h1 : t.type < 2 := hv.1.2.1
    have h2 : l.level ≤ 21 := hv.2.2.2
    have h3 : t.level = l.level := hv.2.2.1
    intro p hp
    rcases List.mem_append.1 (show p ∈ lineFields l ++ triFields t from hp) with hp | hp
    · exact line_bound (by omega) p hp
    · exact tri_bound (by omega) (by omega) p hp
  | pyramid =>
    have hg := Pyramid.Valid.good he
    have ht : Pyramid.Elem.type e < 256 := by
      rcases hg.shape with h | h <;> omega
    intro p hp
    rcases List.mem_append.1 (show p ∈ tetFields (Pyramid.Elem.tet e) ++ [(1, (Pyramid.Elem.switch e % 256).toNat), (3, 0)] from hp) with hp | hp
    · exact tet_bound hl ht p hp
    · simp only [List.mem_cons, List.not_mem_nil, or_false] at hp
      rcases hp with rfl | rfl
      · simp only
        omega
      · decide

theorem ofNat_fin2 {x : Fin 2 → BitVec 32} {v : Nat → Nat} (h0 : v 0 = (x 0).toNat) (h1 : v 1 = (x 1).toNat) :
    (fun i : Fin 2 => BitVec.ofNat 32 (v i)) = x := by
  funext i
  match i with
  | 0 => show BitVec.ofNat 32 (v 0) = _; rw [h0, BitVec.ofNat_toNat, BitVec.setWidth_eq]
  | 1 => show BitVec.ofNat 32 (v 1) = _; rw [h1, BitVec.ofNat_toNat, BitVec.setWidth_eq]

theorem ofNat_fin3 {x : Fin 3 → BitVec 32} {v : Nat → Nat} (h0 : v 0 = (x 0).toNat) (h1 : v 1 = (x 1).toNat) (h2 : v 2 = (x 2).toNat) :
    (fun i : Fin 3 => BitVec.ofNat 32 (v i)) = x := by
  funext i
  match i with
  | 0 => show BitVec.ofNat 32 (v 0) = _; rw [h0, BitVec.ofNat_toNat, BitVec.setWidth_eq]
  | 1 => show BitVec.ofNat 32 (v 1) = _; rw [h1, BitVec.ofNat_toNat, BitVec.setWidth_eq]
  | 2 => show BitVec.ofNat 32 (v 2) = _; rw [h2, BitVec.ofNat_toNat, BitVec.setWidth_eq]

theorem ofFields_fieldsOf (c : Eclass) (e : (treeOf S c).E) (he : (treeOf S c).Valid e) :
    ofFields S c (fun i => ((fieldsOf S c e).map Prod.snd).getD i 0) = e := by
  cases c with
  | vertex => rfl
  | line =>
    show (⟨BitVec.ofNat 32 (Dline.Line.x e).toNat, Dline.Line.level e⟩ : Dline.Line) = e
    rw [BitVec.ofNat_toNat, BitVec.setWidth_eq]
    rfl
  | quad =>
    have := ofNat_fin2 (x := Standalone.Elem.coords e) (v := fun i => ((fieldsOf S .quad e).map Prod.snd).getD i 0) rfl rfl
    exact congrArg (fun x => (⟨x, Standalone.Elem.level e⟩ : Standalone.Elem 2)) this
  | triangle =>
    have := ofNat_fin2 (x := Simplex.Elem.x e) (v := fun i => ((fieldsOf S .triangle e).map Prod.snd).getD (3 + i) 0) rfl rfl
    exact congrArg (fun x => (⟨x, Simplex.Elem.level e, Simplex.Elem.type e⟩ : Simplex.Elem 2)) this
  | hex =>
    have := ofNat_fin3 (x := Standalone.Elem.coords e) (v := fun i => ((fieldsOf S .hex e).map Prod.snd).getD i 0) rfl rfl rfl
    exact congrArg (fun x => (⟨x, Standalone.Elem.level e⟩ : Standalone.Elem 3)) this
  | tet =>
    have := ofNat_fin3 (x := Simplex.Elem.x e) (v := fun i => ((fieldsOf S .tet e).map Prod.snd).getD (3 + i) 0) rfl rfl rfl
    exact congrArg (fun x => (⟨x, Simplex.Elem.level e, Simplex.Elem.type e⟩ : Simplex.Elem 3)) this
  | prism =>
    obtain ⟨t, l⟩ := e
    have := ofNat_fin2 (x := Simplex.Elem.x t) (v := fun i => ((fieldsOf S .prism (t, l)).map Prod.snd).getD (6 + i) 0) rfl rfl
    have hx : BitVec.ofNat 32 l.x.toNat = l.x := by rw [BitVec.ofNat_toNat, BitVec.setWidth_eq]
    exact congrArg₂ (fun x y => (((⟨x, Simplex.Elem.level t, Simplex.Elem.type t⟩ : Simplex.Elem 2), (⟨y, l.level⟩ : Dline.Line)) : Prism.Prism))
      this hx
  | pyramid =>
    have hg := Pyramid.Valid.good he
    have hl : Pyramid.Elem.level e ≤ 21 := hg.cube.1
    have hs : (((Pyramid.Elem.switch e % 256).toNat : Nat) : Int).bmod 256 = Pyramid.Elem.switch e := by
      rw [Int.bmod_def]
      rcases hg.shape with h | h <;> split <;> omega
    have := ofNat_fin3 (x := Simplex.Elem.x (Pyramid.Elem.tet e)) (v := fun i => ((fieldsOf S .pyramid e).map Prod.snd).getD (3 + i) 0) rfl rfl rfl
    exact congrArg₂ (fun x y => (⟨⟨x, Simplex.Elem.level (Pyramid.Elem.tet e), Simplex.Elem.type (Pyramid.Elem.tet e)⟩, y⟩ : Pyramid.Elem))
      this hs

/-- The elements of the default scheme can be sent. -/
theorem default_codec : (defaultCodec S classes).Lawful where
  eclass g := by
    show eclassNum _ < 2 ^ 32
    cases classOf classes g <;> decide
  size g := by
    show 0 < sizeOfNum (eclassNum _)
    cases classOf classes g <;> decide
  length g e := by
    show (pack (fieldsOf S (classOf classes g) e)).length = sizeOfNum (eclassNum _)
    rw [length_pack, widths_eq]
    cases classOf classes g <;> rfl
  decode g e he := by
    show ofFields S (classOf classes g) (fun i => (unpack (widthsOf (classOf classes g)) (pack (fieldsOf S (classOf classes g) e))).getD i 0) = e
    have := unpack_pack _ (fields_bound (classOf classes g) e he)
    rw [widths_eq] at this
    rw [this]
    exact ofFields_fieldsOf _ e he

theorem size_le (g : Nat) : (defaultCodec S classes).size ((defaultCodec S classes).eclass g) ≤ 24 := by
  show sizeOfNum (eclassNum _) ≤ 24
  cases classOf classes g <;> decide

/-- A message for few elements is short. -/
theorem numBytes_le {trees : List (RemoteTree (forestTrees S classes))} (h : ∀ t ∈ trees, t.elements ≠ []) :
    numBytes (defaultCodec S classes) trees ≤ 8 + 55 * (trees.flatMap RemoteTree.seq).length := by
  rw [numBytes_eq default_codec, messageOf, List.length_append, length_pad, length_toBytes]
  have h8 : sizeofSize + addPadding sizeofSize = 8 := by decide
  have key : ∀ trees : List (RemoteTree (forestTrees S classes)), (∀ t ∈ trees, t.elements ≠ []) →
      (trees.flatMap (block (defaultCodec S classes))).length ≤ 55 * (trees.flatMap RemoteTree.seq).length := by
    intro trees
    induction trees with
    | nil => intro _; simp
    | cons t ts ih =>
      intro h
      have h1 := ih (fun u hu => h u (by simp [hu]))
      have h2 := List.length_pos_iff.2 (h t (by simp))
      rw [List.flatMap_cons, List.flatMap_cons, List.length_append, List.length_append]
      have h3 : t.seq.length = t.elements.length := by rw [RemoteTree.seq, List.length_map]
      have h4 := length_elementBytes default_codec t
      have h5 : t.elements.length * (defaultCodec S classes).size ((defaultCodec S classes).eclass t.gtreeid) ≤ t.elements.length * 24 :=
        Nat.mul_le_mul_left _ (size_le t.gtreeid)
      have h6 : (block (defaultCodec S classes) t).length ≤ 55 * t.elements.length := by
        simp only [block, List.length_append, length_pad, length_toBytes, h4]
        have a1 : sizeofGloidx + addPadding sizeofGloidx = 8 := by decide
        have a2 : sizeofEclass + addPadding sizeofEclass = 8 := by decide
        have a3 : ∀ n, addPadding n < 8 := fun n => Nat.mod_lt _ (by decide)
        have := a3 (t.elements.length * (defaultCodec S classes).size ((defaultCodec S classes).eclass t.gtreeid))
        omega
      rw [h3]
      omega
  have := key trees h
  omega

variable {P L : Nat} {D : DistForest (forestTrees S classes) P classes.length L} {A : Owner.Tables}

theorem default_collected (hS : S.Documented) (hC : Conforming dim classes joins) (hD : D.Complete) (hA : Owner.Matches D A)
    (hlen : P < A.firstDescs.length) (hK : classes.length ≤ 2 ^ 63) (hN : ∀ p, p < P → (D.localLeaves p).length ≤ 39000000)
    {trees : Nat → List (Populate.LocalTree (forestTrees S classes))}
    (hst : ∀ p, p < P → Stores D p (trees p)) {G : Nat → Remotes (forestTrees S classes)}
    (hG : ∀ p : Nat, p < P → fillRemoteV3 (defaultEnv S dim classes joins A p) (trees p) = some (G p)) :
    Collected (defaultCodec S classes) (fun g => InOf S (classOf classes g)) D (defaultEnv S dim classes joins A 0)
      (fun p : Nat => defaultEnv S dim classes joins A p) trees G where
  codec := default_codec
  setting := fun _ hp => default_setting hS hC hD hA hlen hp
  same := fun _ _ => ⟨rfl, rfl⟩
  stores := hst
  filled := hG
  fits := by
    intro p hp r hr
    obtain ⟨G', h1, h2, h3, h4⟩ := C55_fill_remote_partial (default_setting hS hC hD hA hlen hp) (hst p hp)
    rw [hG p hp] at h1
    obtain rfl := Option.some.inj h1
    obtain ⟨b1, _⟩ := h4 r.rank (by rw [h2.processes]; exact List.mem_map_of_mem (f := fun r => r.rank) hr)
    obtain ⟨q, hq⟩ := Int.eq_ofNat_of_zero_le b1
    have hseq : r.seq = mustSend (defaultEnv S dim classes joins A p) (fun g => InOf S (classOf classes g)) D p (trees p) q := by
      rw [← h3 q, ← hq, Remotes.sent_of_mem h2 hr]
    refine ⟨?_, ?_⟩
    · intro t ht
      obtain ⟨y, hy⟩ := List.exists_mem_of_ne_nil _ ((h2.remotes r hr).trees t ht)
      have hm : (⟨t.gtreeid, y⟩ : Sent (forestTrees S classes)) ∈ r.seq := List.mem_flatMap.2 ⟨t, ht, List.mem_map.2 ⟨y, hy, rfl⟩⟩
      rw [hseq, mustSend] at hm
      have := (leaf_facts hp (indexed_facts (hst p hp) (List.mem_of_mem_filter hm))).1
      simp only at this
      omega
    · have hb := numBytes_le (S := S) (classes := classes) (h2.remotes r hr).trees
      have hl : (r.trees.flatMap RemoteTree.seq).length ≤ (D.localLeaves p).length := by
        change r.seq.length ≤ _
        rw [hseq, mustSend, ← (hst p hp).leaves, ← indexed_leaves, List.length_map]
        exact List.length_filter_le _ _
      have := hN p hp
      omega

/-- **C56** for the default scheme and conforming coarse meshes, for forests whose trees are covered by leaves and with at most 39 million
leaves on each process: if the messages for a process arrive, in any order, then its ghost layer has exactly the leaves of other processes that
share a face with one of its leaves, also across the faces of trees, in the order of the processes and of the leaves.

What is missing is the same as for `C55_default_partial`. -/
theorem C56_default_partial (hS : S.Documented) (hC : Conforming dim classes joins) (hD : D.Complete) (hA : Owner.Matches D A)
    (hlen : P < A.firstDescs.length) (hK : classes.length ≤ 2 ^ 63) (hN : ∀ p, p < P → (D.localLeaves p).length ≤ 39000000)
    {trees : Nat → List (Populate.LocalTree (forestTrees S classes))}
    (hst : ∀ p, p < P → Stores D p (trees p)) {G : Nat → Remotes (forestTrees S classes)}
    (hG : ∀ p : Nat, p < P → fillRemoteV3 (defaultEnv S dim classes joins A p) (trees p) = some (G p)) :
    ∃ msgs : Nat → List (Int × List UInt8), (∀ q, q < P → sendStart (defaultCodec S classes) (G q) = some (msgs q)) ∧
    ∀ p, p < P → ∀ arrivals, arrivals.Perm (delivered P msgs p) →
    ∃ layer, receive (defaultCodec S classes) (G p) arrivals = some (layer, ⟨(G p).ghosts,
        (ghostOwners (forestNeighbor S dim classes joins) (fun g => InOf S (classOf classes g))
          (fun g => (facesOf S (classOf classes g)).numFaces) D p).map Int.ofNat⟩) ∧
      layer.Holds (defaultCodec S classes) ((ghostOwners (forestNeighbor S dim classes joins) (fun g => InOf S (classOf classes g))
          (fun g => (facesOf S (classOf classes g)).numFaces) D p).map (fun q : Nat => ((q : Int),
            ghostsFrom (forestNeighbor S dim classes joins) (fun g => InOf S (classOf classes g))
              (fun g => (facesOf S (classOf classes g)).numFaces) D p q))) :=
  C56_ghost_layer_partial (default_collected hS hC hD hA hlen hK hN hst hG)

end T8.Neighbor

/-! ### A concrete case -/

namespace T8.Neighbor.GhostExample
open T8.RTree T8.Spec T8.Ghost T8.GhostSpec

variable (S : P4ests)

/-- The hypotheses of C56 are met for a prism and a pyramid on two processes, and process 0 receives the first child of the pyramid. -/
theorem message_example (hS : S.Documented) : ∃ G, Collected (defaultCodec S classes) (fun g => InOf S (classOf classes g)) (D S)
    (defaultEnv S 3 classes joins A 0) (fun p : Nat => defaultEnv S 3 classes joins A p) (trees S) G ∧
    ⟨1, q S 0⟩ ∈ ghostsFrom (forestNeighbor S 3 classes joins) (fun g => InOf S (classOf classes g))
      (fun g => (facesOf S (classOf classes g)).numFaces) (D S) 0 1 := by
  have hex : ∀ p : Nat, p < 2 → ∃ G, fillRemoteV3 (defaultEnv S 3 classes joins A p) (trees S p) = some G := fun p hp => by
    obtain ⟨G, h1, _⟩ := C55_default_partial (D := D S) hS conforming (fun _ hg => tiles S hg) (matches_arrays S) (by decide) (p := p) hp
      (stores S hp)
    exact ⟨G, h1⟩
  obtain ⟨G0, h0⟩ := hex 0 (by decide)
  obtain ⟨G1, h1⟩ := hex 1 (by decide)
  refine ⟨fun p => if p = 0 then G0 else G1, ?_, ?_⟩
  · refine default_collected hS conforming (fun _ hg => tiles S hg) (matches_arrays S) (by decide) (by decide) ?_ (fun p hp => stores S hp) ?_
    · intro p hp
      obtain rfl | rfl : p = 0 ∨ p = 1 := by omega
      · rw [local0]; simp
      · rw [local1]; simp
    · intro p hp
      obtain rfl | rfl : p = 0 ∨ p = 1 := by omega
      · exact h0
      · exact h1
  · classical
    refine List.mem_filter.2 ⟨?_, decide_eq_true ⟨by decide, by decide, ⟨0, (T S 0).root⟩, ?_, shares_example S hS⟩⟩
    · rw [local1]
      exact List.mem_map.2 ⟨0, by decide, rfl⟩
    · rw [local0]
      simp

end T8.Neighbor.GhostExample
