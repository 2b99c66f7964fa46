/-
C58: the arrays about the distribution, the ghost layer, partition and balance work together.
-/
import Verif.Lemmas.ForestLib
import Verif.Props.GhostMessageDefault

namespace T8.Neighbor
open T8.RTree T8.Spec T8.Populate T8.Ghost T8.GhostSpec T8.BalanceSpec T8.Balance T8.ForestLib

variable {S : P4ests} {dim : Nat} {classes : List Eclass} {joins : List Stash.JoinFace}

/-- `t8_eclass_max_num_children`, src/t8_eclass/t8_eclass.c:37 and src/t8_eclass/t8_eclass.h:98. -/
def maxNumChildren : Eclass → Nat
  | .vertex => 1 | .line => 2 | .quad => 4 | .triangle => 4 | .hex => 8 | .tet => 8 | .prism => 8 | .pyramid => 10

/-- The default scheme and a committed coarse mesh. -/
def defaultSetup (S : P4ests) (dim : Nat) (classes : List Eclass) (joins : List Stash.JoinFace) (maxlevel behind : Nat)
    (order : Nat → List (Int × List UInt8) → List (Int × List UInt8)) (fl : ℚ → ℚ) : Setup (forestTrees S classes) where
  base := defaultEnv S dim classes joins ⟨0, 0, 0, [], [], []⟩ 0
  codec := defaultCodec S classes
  maxChildren g := maxNumChildren (classOf classes g)
  numTrees := classes.length
  maxlevel := maxlevel
  behind := behind
  order := order
  fl := fl

/-- The number of children at a face depends on the dimension only. -/
theorem numFaceChildren_eq (c : Eclass) (e : (treeOf S c).E) (f : Nat) :
    (facesOf S c).numFaceChildren e f = if c.dim = 0 then 0 else 2 ^ (c.dim - 1) := by
  cases c with
  | prism =>
    show (if f ≥ 3 then 4 else 2 * 2) = 4
    split <;> rfl
  | _ => rfl

variable {L behind : Nat} {order : Nat → List (Int × List UInt8) → List (Int × List UInt8)} {fl : ℚ → ℚ}

theorem vertex_outside {g : Nat} (hg : classes.length ≤ g) : classOf classes g = .vertex := by
  rw [classOf, List.getD_eq_getElem?_getD, List.getElem?_eq_none hg]
  rfl

theorem default_inside {g : Nat} {e : (forestTrees S classes g).E} {f : Nat} (hf : f < (facesOf S (classOf classes g)).numFaces e) :
    g < classes.length := by
  by_contra hc
  have h := vertex_outside (not_lt.1 hc)
  have key : ∀ (c : Eclass) (e : (treeOf S c).E), c = .vertex → ¬ f < (facesOf S c).numFaces e := by
    rintro c e rfl
    exact Nat.not_lt_zero f
  exact key _ e h hf

theorem default_faceChildren (D : S.Documented) (hC : Conforming dim classes joins) (hL : ∀ c ∈ classes, L ≤ maxLevel c) {g : Nat}
    {e : (forestTrees S classes g).E} {f : Nat} {n : Neighbor (forestTrees S classes)} (hg : g < classes.length)
    (he : (forestTrees S classes g).Valid e) (hl : (forestTrees S classes g).level e ≤ L) (hf : f < (facesOf S (classOf classes g)).numFaces e)
    (hn : forestNeighbor S dim classes joins g e f = some n) :
    (facesOf S (classOf classes g)).numFaceChildren e f = (facesOf S (classOf classes n.tree)).numFaceChildren n.elem n.face := by
  have hK := ((forest_neighborhood D hC hL).valid g e f n hg he hl hf hn).1
  have hdim : ∀ g, g < classes.length → (classOf classes g).dim = dim := fun g hg => hC.dim_eq _ (List.mem_of_getElem? (class_getElem hg))
  rw [numFaceChildren_eq, numFaceChildren_eq, hdim g hg, hdim _ hK]

/-- The parts fit together. -/
theorem default_setup_lawful (D : S.Documented) (hC : Conforming dim classes joins) (hne : classes ≠ []) (hL : ∀ c ∈ classes, L ≤ maxLevel c)
    (hpos : 0 < L) (hK : classes.length ≤ 2 ^ 63) (horder : ∀ p l, (order p l).Perm l) (hfl : Uniform.Rounding 53 fl) :
    (defaultSetup S dim classes joins L behind order fl).Lawful (fun g => InOf S (classOf classes g)) 39000000 where
  env := default_lawful D hC hL _ _
  maxlevel g := by
    show L ≤ (treeOf S (classOf classes g)).maxLevel
    rw [maxLevel_treeOf]
    by_cases hg : g < classes.length
    · exact hL _ (List.mem_of_getElem? (class_getElem hg))
    · rw [vertex_outside (not_lt.1 hg)]
      obtain ⟨c, hc⟩ := List.exists_mem_of_ne_nil _ hne
      refine (hL c hc).trans ?_
      cases c <;> decide
  pos := hpos
  inside _ _ _ _ hf _ := default_inside hf
  faceChildren _ _ _ _ hg he hl hf hn := default_faceChildren D hC hL hg he hl hf hn
  codec := default_codec
  fits trees ht hlen := by
    refine ⟨fun t h => ?_, ?_⟩
    · have : t.gtreeid < classes.length := (ht t h).1
      omega
    · have := numBytes_le (S := S) (classes := classes) (trees := trees) (fun t h => (ht t h).2)
      show numBytes (defaultCodec S classes) trees < 2 ^ 31
      omega
  order := horder
  fl := hfl

variable {P : Nat} {D : DistForest (forestTrees S classes) P classes.length L}
  {trees : Nat → List (LocalTree (forestTrees S classes))}

/-- The forest that is distributed over the processes has few leaves, even if it is refined up to the level of its finest leaf. -/
def Small (D : DistForest (forestTrees S classes) P classes.length L) : Prop :=
  ∃ M, (∀ x ∈ leafSequence classes.length D.leaves, Leaf.level x ≤ M) ∧
    ∀ seq, Refines (leafSequence classes.length D.leaves) seq → (∀ x ∈ seq, Leaf.level x ≤ M) → seq.length ≤ 39000000

theorem tiles_length {T : RTree} {c : Nat} (hc : ∀ e, T.Valid e → T.nc e ≤ c) {M : Nat} : ∀ (n : Nat) {e : T.E} {part : List T.E}, T.Valid e →
    M - T.level e = n → T.Tiles e part → (∀ x ∈ part, T.level x ≤ M) → part.length ≤ (max c 1) ^ n := by
  intro n
  induction n with
  | zero =>
    intro e part he hn ht hM
    cases ht with
    | leaf => simp
    | node _ ls hl hls =>
      exfalso
      have hpos := T.nc_pos e he
      have hv := T.valid_child e 0 he hl hpos
      have ht0 := hls 0 hpos
      obtain ⟨x, hx⟩ := List.exists_mem_of_ne_nil _ (ht0.ne_nil hv)
      have h1 : T.level (T.child e 0) ≤ T.level x := (ht0.desc hv x hx).level_le hv
      have h2 := hM x (List.mem_flatMap.2 ⟨0, List.mem_range.2 hpos, hx⟩)
      have h3 := T.level_child e 0 he hl hpos
      omega
  | succ n ih =>
    intro e part he hn ht hM
    cases ht with
    | leaf =>
      exact Nat.one_le_pow _ _ (by omega)
    | node _ ls hl hls =>
      rw [List.length_flatMap, pow_succ, Nat.mul_comm]
      have h1 : ∀ i ∈ List.range (T.nc e), (ls i).length ≤ (max c 1) ^ n := by
        intro i hi
        have hi := List.mem_range.1 hi
        refine ih (T.valid_child e i he hl hi) ?_ (hls i hi) fun x hx => hM x (List.mem_flatMap.2 ⟨i, List.mem_range.2 hi, hx⟩)
        rw [T.level_child e i he hl hi]
        omega
      have h2 : ((List.range (T.nc e)).map (fun i => (ls i).length)).sum ≤ T.nc e * (max c 1) ^ n := by
        have := List.sum_le_card_nsmul ((List.range (T.nc e)).map (fun i => (ls i).length)) ((max c 1) ^ n) (by
          intro x hx
          obtain ⟨i, hi, rfl⟩ := List.mem_map.1 hx
          exact h1 i hi)
        simpa using this
      refine h2.trans (Nat.mul_le_mul_right _ ?_)
      have := hc e he
      omega

theorem nc_le (c : Eclass) (e : (treeOf S c).E) : (treeOf S c).nc e ≤ 10 := by
  cases c with
  | pyramid =>
    show Pyramid.numChildren e ≤ 10
    unfold Pyramid.numChildren
    split <;> omega
  | vertex => exact (by decide : 1 ≤ 10)
  | line => exact (by decide : 2 ≤ 10)
  | quad => exact (by decide : 4 ≤ 10)
  | triangle => exact (by decide : 4 ≤ 10)
  | hex => exact (by decide : 8 ≤ 10)
  | tet => exact (by decide : 8 ≤ 10)
  | prism => exact (by decide : 8 ≤ 10)

/-- Forests of `K` trees whose leaves are of level at most `M` are small if `K * 10 ^ M` is. -/
theorem small_of_level (hD : D.Complete) {M : Nat} (hM : ∀ x ∈ leafSequence classes.length D.leaves, Leaf.level x ≤ M)
    (hN : classes.length * 10 ^ M ≤ 39000000) : Small D := by
  refine ⟨M, hM, fun seq hr hl => ?_⟩
  have hb := byTrees_refines hr byTrees_dist
  rw [← hb.eq, leafSequence, List.length_flatMap]
  have := List.sum_le_card_nsmul ((List.range classes.length).map (fun g => ((inTree g seq).map (Sigma.mk (β := fun g => (forestTrees S classes g).E) g)).length)) (10 ^ M) (by
    intro x hx
    obtain ⟨g, hg, rfl⟩ := List.mem_map.1 hx
    have hg := List.mem_range.1 hg
    rw [List.length_map]
    have ht := tiles_inTree hr g (e := (forestTrees S classes g).root) (by rw [inTree_leafSequence hg]; exact hD g hg)
    refine (tiles_length (T := forestTrees S classes g) (c := 10) (fun e _ => nc_le _ e) M (forestTrees S classes g).valid_root
      (M := M) (by rw [(forestTrees S classes g).level_root]; omega) ht
      (fun x hx => hl ⟨g, x⟩ (mem_inTree.1 hx))).trans (by rw [show max 10 1 = 10 from rfl]))
  refine le_trans ?_ hN
  simpa using this

theorem allOf_eq {T : Nat → RTree} {all : List (List (LocalTree T))} (h : all.length = P) : (List.range P).map (fun p => all.getD p []) = all := by
  apply List.ext_getElem?
  intro i
  rw [List.getElem?_map]
  by_cases hi : i < P
  · rw [List.getElem?_range hi, Option.map_some, List.getD_eq_getElem _ _ (by omega), List.getElem?_eq_getElem (by omega)]
  · rw [List.getElem?_eq_none (by simp; omega), List.getElem?_eq_none (by omega), Option.map_none]

theorem getD_range {α : Type} {f : Nat → List α} {p : Nat} (hp : p < P) : ((List.range P).map f).getD p [] = f p := by
  rw [List.getD_eq_getElem?_getD, List.getElem?_map, List.getElem?_range hp]
  rfl

theorem ghostsFrom_congr {T : Nat → RTree} {nb : Neighbors T} {In : ∀ g, (T g).E → Nat → (T g).E → Nat → Prop} {faces : (g : Nat) → (T g).E → Nat}
    {K L : Nat} {D D' : DistForest T P K L} (h : ∀ p, p < P → D.localLeaves p = D'.localLeaves p) {p q : Nat} (hp : p < P) (hq : q < P) :
    ghostsFrom nb In faces D p q = ghostsFrom nb In faces D' p q := by
  unfold ghostsFrom
  rw [h q hq]
  congr 1
  funext x
  have : Touches nb In faces D p x ↔ Touches nb In faces D' p x := by
    unfold Touches
    rw [h p hp]
  rw [decide_eq_decide, this]

theorem owners_flatMap {T : Nat → RTree} {nb : Neighbors T} {In : ∀ g, (T g).E → Nat → (T g).E → Nat → Prop} {faces : (g : Nat) → (T g).E → Nat}
    {K L : Nat} {D : DistForest T P K L} (p : Nat) :
    (ghostOwners nb In faces D p).flatMap (ghostsFrom nb In faces D p) = (List.range P).flatMap (ghostsFrom nb In faces D p) := by
  classical
  rw [ghostOwners]
  generalize List.range P = l
  induction l with
  | nil => rfl
  | cons q l ih =>
    by_cases hq : ghostsFrom nb In faces D p q = []
    · rw [List.filter_cons_of_neg (by simp [hq]), ih, List.flatMap_cons, hq, List.nil_append]
    · rw [List.filter_cons_of_pos (by simpa using hq), List.flatMap_cons, List.flatMap_cons, ih]

section Theorems
variable (hS : S.Documented) (hC : Conforming dim classes joins) (hne : classes ≠ []) (hpos : 0 < L) (hK : classes.length ≤ 2 ^ 63)
  (horder : ∀ p l, (order p l).Perm l) (hfl : Uniform.Rounding 53 fl) (hD : D.Complete) (hst : ∀ p, p < P → Stores D p (trees p))

include hD hne in
theorem maxLevel_of_dist : ∀ c ∈ classes, L ≤ maxLevel c := by
  intro c hc
  obtain ⟨g, hg, rfl⟩ := List.getElem_of_mem hc
  have h := D.maxLevel g hg
  rw [maxLevel_treeOf, (class_of_getElem (List.getElem?_eq_getElem hg)).2] at h
  exact h

include hS hC hne hpos hK horder hfl hD hst in
/-- **C58** (ghost layer): for complete forests over a conforming coarse mesh with the default scheme, the library creates the arrays about the
distribution and the ghost layer on every process without a failure. The ghost layer of a process has exactly the leaves of other processes
that share a face with one of its leaves, in order, and is sorted by trees.

What is missing is the same as for `C55_default_partial`: the entry behind the array of first descendants has any value here but must exist
(C27), children of pyramids at faces are those of the repaired function (C14), and the coarse mesh is conforming. -/
theorem C58_ghost_partial (hsmall : Small D) {p : Nat} (hp : p < P) :
    ∃ G, createGhost (defaultSetup S dim classes joins L behind order fl) ((List.range P).map trees) p = some G ∧
      procSeq G = (List.range P).flatMap (ghostsFrom (forestNeighbor S dim classes joins) (fun g => InOf S (classOf classes g))
        (fun g => (facesOf S (classOf classes g)).numFaces) D p) ∧
      (G.map (fun t => t.cls)).Pairwise (· < ·) ∧ ∀ t ∈ G, t.leaves ≠ [] := by
  have hU := default_setup_lawful (behind := behind) hS hC hne (maxLevel_of_dist hne hD) hpos hK horder hfl
  obtain ⟨M, hM, hN⟩ := hsmall
  have hok := ok_of_stores (U := defaultSetup S dim classes joins L behind order fl) (D := D) hD hst hM hN
  have hg := good_of_stores hst
  obtain ⟨layer, h1, h2⟩ := createGhost_spec hok hg D.part.pos hU hp
  have hloc : ∀ q, q < P → (distOf hok hg D.part.pos hU.maxlevel).localLeaves q = D.localLeaves q := by
    intro q hq
    rw [dist_local hok hg D.part.pos hU.maxlevel hq, getD_range hq, (hst q hq).leaves]
  refine ⟨_, h1, ?_, ?_, ?_⟩
  · have h3 : procSeq (layer.trees.map (fun t => (⟨t.gtreeid, t.gtreeid, t.elements⟩ : LocalTree (forestTrees S classes)))) = layer.seq := by
      rw [procSeq, List.flatMap_map]
      rfl
    rw [h3, h2.seq, List.flatMap_map]
    refine (owners_flatMap p).trans (List.flatMap_congr fun q hq => ?_)
    exact ghostsFrom_congr hloc hp (List.mem_range.1 hq)
  · rw [List.map_map, List.pairwise_map]
    exact h2.good.ids
  · intro t ht
    obtain ⟨u, hu, rfl⟩ := List.mem_map.1 ht
    exact h2.good.nonempty u hu

include hS hC hne hpos hK horder hfl hD hst in
/-- **C58** (partition): the partition of such a forest succeeds on every process. The result is the same forest on the same processes; the
number of leaves before process `i` is `N * i / P` up to rounding.

What is missing is the same as for `C55_default_partial`: the entry behind the array of first descendants has any value here but must exist
(C27), children of pyramids at faces are those of the repaired function (C14), and the coarse mesh is conforming. -/
theorem C58_partition_partial (hsmall : Small D) (hP : P < 2 ^ 31) :
    ∃ (trees' : Nat → List (LocalTree (forestTrees S classes))) (D' : DistForest (forestTrees S classes) P classes.length L),
      repartition (defaultSetup S dim classes joins L behind order fl) ((List.range P).map trees) = some ((List.range P).map trees') ∧
      (∀ g, g < classes.length → D'.leaves g = D.leaves g) ∧ (∀ p, p < P → Stores D' p (trees' p)) ∧
      ∀ i, i ≤ P → |(D'.part.off i : ℚ) - (leafSequence classes.length D.leaves).length * i / P| ≤
        1 + (leafSequence classes.length D.leaves).length / 2 ^ 51 := by
  have hU := default_setup_lawful (behind := behind) hS hC hne (maxLevel_of_dist hne hD) hpos hK horder hfl
  obtain ⟨M, hM, hN⟩ := hsmall
  have hok := ok_of_stores (U := defaultSetup S dim classes joins L behind order fl) (D := D) hD hst hM hN
  have hg := good_of_stores hst
  obtain ⟨all, h1, h2, h3, h4, h5⟩ := partition_spec hok hg D.part.pos hU hP
  rw [leafSeq_of_stores hst] at h2 h5
  have hg' : Good all := ⟨h3, fun g => by rw [h2, ← leafSeq_of_stores hst]; exact hg.ordered g⟩
  refine ⟨fun p => all.getD p [], distOf h4 hg' D.part.pos hU.maxlevel, by rw [allOf_eq h4.procs]; exact h1, fun g hgK => ?_,
    fun p hp => dist_stores h4 hg' D.part.pos hU.maxlevel hp, h5⟩
  show inTree g (leafSeq all) = _
  rw [h2, inTree_leafSequence hgK]

include hS hC hne hpos hK horder hfl hD hst in
/-- **C58** (balance): for complete forests over a conforming coarse mesh with the default scheme, `t8_forest_balance` comes to an end without
a failure, with and without repartition, where the ghost layers and the repartition are those that the library computes. The result is a
forest on the same processes; it is a complete refinement of the old one, no leaf is of a higher level than all old leaves, and the
levels of leaves that touch across a face differ by at most one. In the result `t8_forest_is_balanced` tells that it is balanced,
with and without ghost layer, if no leaf is of the maximum level.

What is missing is the same as for `C55_default_partial`: the entry behind the array of first descendants has any value here but must exist
(C27), children of pyramids at faces are those of the repaired function (C14), and the coarse mesh is conforming. -/
theorem C58_balance_partial (hsmall : Small D) (hP : P < 2 ^ 31) {layers : Nat → Option (List (LocalTree (forestTrees S classes)))}
    (hl : ∀ p, p < P → layers p = none ∨
      layers p = createGhost (defaultSetup S dim classes joins L behind order fl) ((List.range P).map trees) p) (repartition : Bool) :
    ∃ (trees' : Nat → List (LocalTree (forestTrees S classes))) (D' : DistForest (forestTrees S classes) P classes.length L),
      balance (defaultSetup S dim classes joins L behind order fl).lib repartition false
        ((List.range P).map (fun p => ⟨trees p, layers p⟩)) = some ((List.range P).map trees') ∧
      D'.Complete ∧ (∀ p, p < P → Stores D' p (trees' p)) ∧
      Refines (leafSequence classes.length D.leaves) (leafSequence classes.length D'.leaves) ∧
      (∀ x ∈ leafSequence classes.length D'.leaves, ∃ y ∈ leafSequence classes.length D.leaves, Leaf.level x ≤ Leaf.level y) ∧
      Balanced (forestNeighbor S dim classes joins) (fun g => InOf S (classOf classes g)) (fun g => (facesOf S (classOf classes g)).numFaces)
        (leafSequence classes.length D'.leaves) ∧
      ((∀ x ∈ leafSequence classes.length D'.leaves, Leaf.level x < L) → ∀ p, p < P → ∀ gs, gs = none ∨
        gs = createGhost (defaultSetup S dim classes joins L behind order fl) ((List.range P).map trees') p →
        isBalanced (defaultSetup S dim classes joins L behind order fl).lib ⟨trees' p, gs⟩ (-1) = some true) := by
  have hU := default_setup_lawful (behind := behind) hS hC hne (maxLevel_of_dist hne hD) hpos hK horder hfl
  obtain ⟨M, hM, hN⟩ := hsmall
  have hok := ok_of_stores (U := defaultSetup S dim classes joins L behind order fl) (D := D) hD hst hM hN
  have hg := good_of_stores hst
  have hX := lib_lawful hU D.part.pos hP
  have hall : allTrees ((List.range P).map (fun p => (⟨trees p, layers p⟩ : Process (forestTrees S classes)))) = (List.range P).map trees := by
    rw [allTrees, List.map_map]
    rfl
  have hin : Input (defaultSetup S dim classes joins L behind order fl).lib
      ((List.range P).map (fun p => (⟨trees p, layers p⟩ : Process (forestTrees S classes)))) := by
    refine ⟨by rw [hall]; exact hg, by rw [hall]; exact hok.level, ?_⟩
    intro p Q hQ
    rw [hall]
    rw [List.getElem?_map, Option.map_eq_some_iff] at hQ
    obtain ⟨q, hq, rfl⟩ := hQ
    obtain ⟨hq1, hq2⟩ := List.getElem?_eq_some_iff.1 hq
    rw [List.getElem_range] at hq2
    subst hq2
    exact hl p (by simpa using hq1)
  obtain ⟨all, h1, h2, h3, h4, h5, h6, h7⟩ := C37_balance hX hin (by rw [hall]; exact hok) repartition false
  rw [hall, leafSeq_of_stores hst] at h4 h5
  have hd := dist_leaves h3 h2 D.part.pos hU.maxlevel
  refine ⟨fun p => all.getD p [], distOf h3 h2 D.part.pos hU.maxlevel, by rw [allOf_eq h3.procs]; exact h1,
    dist_complete h3 h2 D.part.pos hU.maxlevel, fun p hp => dist_stores h3 h2 D.part.pos hU.maxlevel hp, ?_, ?_, ?_, ?_⟩
  · exact hd.symm ▸ h4
  · exact hd.symm ▸ h5
  · exact hd.symm ▸ h6
  · intro hlt p hp gs hgs
    rw [allOf_eq h3.procs] at hgs
    refine h7 (fun x hx => hlt x (hd.symm ▸ hx)) p _ gs ?_ hgs
    show all[p]? = some (all.getD p [])
    rw [List.getD_eq_getElem _ _ (by rw [h3.procs]; exact hp), List.getElem?_eq_getElem (by rw [h3.procs]; exact hp)]

end Theorems

end T8.Neighbor

/-! ### A concrete case -/

namespace T8.Neighbor.ForestExample
open T8.RTree T8.Spec T8.Populate T8.Ghost T8.GhostSpec T8.BalanceSpec T8.Balance T8.ForestLib T8.Neighbor.GhostExample

variable (S : P4ests)

theorem maxLevel_ge {g : Nat} (hg : g < 2) : 3 ≤ (T S g).maxLevel := by
  obtain rfl | rfl : g = 0 ∨ g = 1 := by omega
  · exact (by decide : 3 ≤ Prism.tree.maxLevel)
  · exact (by decide : 3 ≤ Pyramid.tree.maxLevel)

theorem level_le2 {g : Nat} (hg : g < 2) : (T S g).level (T S g).root + 2 * g ≤ (T S g).maxLevel := by
  have := maxLevel_ge S hg
  rw [(T S g).level_root]
  omega

theorem tiles2 {g : Nat} (hg : g < 2) : (T S g).Tiles (T S g).root ((T S g).uniform (T S g).root (2 * g)) :=
  Tiles.uniform (T S g).valid_root (level_le2 S hg)

theorem level2 {g : Nat} (hg : g < 2) {x : (T S g).E} (hx : x ∈ (T S g).uniform (T S g).root (2 * g)) : (T S g).level x = 2 * g := by
  have := ((mem_uniform (T S g).valid_root (level_le2 S hg)).1 hx).2
  rw [(T S g).level_root] at this
  omega

theorem seq2 : leafSequence 2 (fun g => (T S g).uniform (T S g).root (2 * g)) =
    ⟨0, (T S 0).root⟩ :: ((T S 1).uniform (T S 1).root 2).map (Sigma.mk 1) := by
  rw [leafSequence, show List.range 2 = [0, 1] from rfl, List.flatMap_cons, List.flatMap_cons, List.flatMap_nil, List.append_nil]
  rfl

/-- A prism that is a leaf on one process and a pyramid that is refined twice on another. The first is to be refined by balance. -/
def D2 : DistForest (T S) 2 2 3 where
  leaves g := (T S g).uniform (T S g).root (2 * g)
  ordered g hg := (tiles2 S hg).ordered (T S g).valid_root
  nonempty g hg := (tiles2 S hg).ne_nil (T S g).valid_root
  level_le g hg x hx := by
    have := level2 S hg hx
    omega
  maxLevel g hg := maxLevel_ge S hg
  part := {
    off := fun p => match p with | 0 => 0 | 1 => 1 | _ => ((T S 1).uniform (T S 1).root 2).length + 1
    pos := by decide
    zero := rfl
    top := by rw [seq2, List.length_cons, List.length_map]; rfl
    mono := fun p hp => by
      obtain rfl | rfl : p = 0 ∨ p = 1 := by omega
      · exact Nat.zero_le _
      · exact Nat.le_add_left _ _ }

/-- The trees of the processes. -/
def trees2 : Nat → List (LocalTree (T S))
  | 0 => [⟨0, 0, [(T S 0).root]⟩]
  | _ => [⟨1, 1, (T S 1).uniform (T S 1).root 2⟩]

theorem stores2 {p : Nat} (hp : p < 2) : Stores (D2 S) p (trees2 S p) := by
  have hne := (tiles2 S (g := 1) (by decide)).ne_nil (T S 1).valid_root
  obtain rfl | rfl : p = 0 ∨ p = 1 := by omega
  · refine ⟨?_, by simp [trees2], by simp [trees2]⟩
    show _ = slice (leafSequence 2 fun g => (T S g).uniform (T S g).root (2 * g)) 0 1
    rw [seq2]
    rfl
  · refine ⟨?_, ?_, by simp [trees2]⟩
    · show _ = slice (leafSequence 2 fun g => (T S g).uniform (T S g).root (2 * g)) 1 (((T S 1).uniform (T S 1).root 2).length + 1)
      rw [seq2]
      show procSeq [(⟨1, 1, (T S 1).uniform (T S 1).root 2⟩ : LocalTree (T S))] = _
      rw [procSeq, List.flatMap_cons, List.flatMap_nil, List.append_nil, slice, List.drop_one, List.tail_cons, List.take_of_length_le (by simp)]
    · intro t ht
      obtain rfl := List.mem_singleton.1 (show t ∈ [(⟨1, 1, (T S 1).uniform (T S 1).root 2⟩ : LocalTree (T S))] from ht)
      exact hne

theorem small2 : Small (classes := classes) (D2 S) := by
  refine small_of_level (M := 2) (fun g hg => tiles2 S hg) (fun x hx => ?_) (by decide)
  obtain ⟨hg, hx⟩ := Owner.mem_seq.1 hx
  have := level2 S hg hx
  show (T S x.1).level x.2 ≤ 2
  have : x.1 < 2 := hg
  omega

/-- The forest is not balanced: the last child of the first child of the pyramid touches the prism. -/
theorem not_balanced (hS : S.Documented) : ¬ Balanced (forestNeighbor S 3 classes joins) (fun g => InOf S (classOf classes g))
    (fun g => (facesOf S (classOf classes g)).numFaces) (leafSequence 2 (D2 S).leaves) := by
  intro hb
  have hr : Pyramid.Valid Pyramid.root := (Pyramid.tree).valid_root
  have hc : Pyramid.Valid (Pyramid.child Pyramid.root 0) := (Pyramid.tree).valid_child _ _ hr (by decide) (by decide)
  have hd : Pyramid.tree.Desc Pyramid.root (Pyramid.child (Pyramid.child Pyramid.root 0) 0) :=
    (Desc.child_self (T := Pyramid.tree) (a := Pyramid.root) (i := 0) (by decide) (by decide)).trans
      (Desc.child_self (T := Pyramid.tree) (a := Pyramid.child Pyramid.root 0) (i := 0) (by decide) (by decide))
  have hin1 : Pyramid.InFace (Pyramid.child Pyramid.root 0) 4 Pyramid.root 4 := (Pyramid.inFace_child hr (by decide) (by decide)).2 (by decide)
  have hin2 : Pyramid.InFace (Pyramid.child (Pyramid.child Pyramid.root 0) 0) 4 (Pyramid.child Pyramid.root 0) 4 :=
    (Pyramid.inFace_child hc (by decide) (by decide)).2 (by decide)
  have hin : Pyramid.InFace (Pyramid.child (Pyramid.child Pyramid.root 0) 0) 4 Pyramid.root 4 := ⟨hin2.1, hin1.2.1, hin2.2.2.trans hin1.2.2⟩
  obtain ⟨n, k, h⟩ : ∃ n k, neighborIn S (Cmesh.commit 3 classes joins) 0 (.prism Prism.root) 0 = some (1, .pyramid n, k) := ⟨_, _, rfl⟩
  have hk : (neighborIn S (Cmesh.commit 3 classes joins) 0 (.prism Prism.root) 0).map (·.2.2) = some 4 := by rfl
  obtain rfl : k = 4 := by
    rw [h] at hk
    simpa using hk
  have h : forestNeighbor S 3 classes joins 0 (T S 0).root 0 = some ⟨1, n, 4⟩ := by
    have h' : neighborIn S (Cmesh.commit 3 classes joins) ((0 : Nat) : Int) (emb S _ (T S 0).root) 0 = some (1, .pyramid n, 4) := h
    rw [forestNeighbor, h']
    rfl
  obtain rfl : n = Pyramid.root := by
    have hv := (forest_neighborhood (L := 3) hS conforming (by decide)).valid 0 (T S 0).root 0 _ (by decide) (T S 0).valid_root
      (by rw [(T S 0).level_root]; decide) (by decide : 0 < 5) h
    exact (desc_root (T := Pyramid.tree) hv.2.1).eq_of_level hr hv.2.2.1.le
  have := hb 0 (T S 0).root (Owner.mem_seq.2 ⟨(by decide : 0 < 2), by simp [D2, RTree.uniform]⟩) 0 (by decide : 0 < 5)
    ⟨1, Pyramid.child (Pyramid.child Pyramid.root 0) 0⟩ (Owner.mem_seq.2 ⟨(by decide : 1 < 2), ?_⟩) ⟨_, 4, h, rfl, hd, hin⟩
  · exact absurd this (by decide : ¬ (2 ≤ 0 + 1))
  · exact (mem_uniform (T S 1).valid_root (level_le2 S (by decide))).2 ⟨hd, rfl⟩

/-- The hypotheses of C58 are met: balance refines this forest, with the exact rounding and messages in order. -/
theorem balance_example (hS : S.Documented) (repartition : Bool) :
    ∃ (trees' : Nat → List (LocalTree (T S))) (D' : DistForest (T S) 2 2 3),
      balance (defaultSetup S 3 classes joins 3 0 (fun _ l => l) (Uniform.roundNE 53)).lib repartition false
        ((List.range 2).map (fun p => ⟨trees2 S p, none⟩)) = some ((List.range 2).map trees') ∧
      (∀ p, p < 2 → Stores D' p (trees' p)) ∧ leafSequence 2 D'.leaves ≠ leafSequence 2 (D2 S).leaves := by
  obtain ⟨trees', D', h1, _, h3, _, _, h6, _⟩ := C58_balance_partial (D := D2 S) (trees := trees2 S) (order := fun _ l => l)
    (fl := Uniform.roundNE 53) (behind := 0) hS conforming
    (by decide) (by decide) (by decide) (fun _ l => List.Perm.refl l) (Uniform.roundNE_rounding (by decide)) (fun _ hg => tiles2 S hg)
    (fun _ hp => stores2 S hp) (small2 S) (by decide) (layers := fun _ => none) (fun _ _ => Or.inl rfl) repartition
  exact ⟨trees', D', h1, h3, fun h => not_balanced S hS (h ▸ h6)⟩

end T8.Neighbor.ForestExample
