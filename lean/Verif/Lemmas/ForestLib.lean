/-
Lemmas on the forests of all processes (`Model/ForestLib.lean`).
-/
import Verif.Model.ForestLib
import Verif.Props.Balance
import Verif.Props.ForestArrays
import Verif.Props.GhostExchange
import Verif.Props.Partition
import Verif.Props.PartitionOffset

namespace T8.ForestLib
open RTree T8.Spec T8.Populate T8.Ghost T8.GhostSpec T8.Owner T8.BalanceSpec T8.Balance

variable {T : Nat → RTree}

/-! ### Sequences of leaves -/

/-- The leaves are sorted by trees, and there are `K` trees. -/
structure ByTrees (K : Nat) (seq : List (BalanceSpec.Leaf T)) : Prop where
  sorted : seq.Pairwise (fun x y => x.1 ≤ y.1)
  lt : ∀ x ∈ seq, x.1 < K

theorem split_sorted (K : Nat) : ∀ {seq : List (BalanceSpec.Leaf T)}, seq.Pairwise (fun x y => x.1 ≤ y.1) → (∀ x ∈ seq, x.1 < K + 1) →
    ∃ a, seq = a ++ (inTree K seq).map (Sigma.mk K) ∧ (∀ x ∈ a, x.1 < K)
  | [], _, _ => ⟨[], rfl, by simp⟩
  | ⟨g, e⟩ :: seq, h, hl => by
    rw [List.pairwise_cons] at h
    by_cases hg : g = K
    · subst hg
      refine ⟨[], ?_, by simp⟩
      rw [inTree_cons_same, List.nil_append, List.map_cons]
      obtain ⟨a, h1, h2⟩ := split_sorted g h.2 (fun x hx => hl x (by simp [hx]))
      cases a with
      | nil => rw [List.nil_append] at h1; rw [← h1]
      | cons x a =>
        have := h.1 x (by rw [h1]; simp)
        have := h2 x (by simp)
        simp only at *
        omega
    · obtain ⟨a, h1, h2⟩ := split_sorted K h.2 (fun x hx => hl x (by simp [hx]))
      refine ⟨⟨g, e⟩ :: a, ?_, ?_⟩
      · rw [inTree_cons_other hg, List.cons_append, ← h1]
      · intro x hx
        rcases List.mem_cons.1 hx with rfl | hx
        · have := hl ⟨g, e⟩ (by simp)
          simp only at *
          omega
        · exact h2 x hx

theorem ByTrees.eq : ∀ {K : Nat} {seq : List (BalanceSpec.Leaf T)}, ByTrees K seq → leafSequence K (fun g => inTree g seq) = seq
  | 0, seq, h => by
    cases seq with
    | nil => rfl
    | cons x _ => exact absurd (h.lt x (by simp)) (by omega)
  | K + 1, seq, h => by
    obtain ⟨a, h1, h2⟩ := split_sorted K h.sorted h.lt
    have ha : ByTrees K a := ⟨by have := h.sorted; rw [h1, List.pairwise_append] at this; exact this.1, h2⟩
    have he := ha.eq
    rw [leafSequence, List.range_succ, List.flatMap_append, List.flatMap_cons, List.flatMap_nil, List.append_nil]
    conv_rhs => rw [h1]
    congr 1
    rw [← he]
    refine List.flatMap_congr fun g hg => ?_
    have hg := List.mem_range.1 hg
    show (inTree g seq).map (Sigma.mk g) = (inTree g a).map (Sigma.mk (β := fun g => (T g).E) g)
    rw [h1, inTree_append, inTree_map_other (by omega), List.append_nil]

theorem byTrees_refines {K : Nat} {a b : List (BalanceSpec.Leaf T)} (h : Refines a b) (ha : ByTrees K a) : ByTrees K b := by
  have key : ∀ {a b : List (BalanceSpec.Leaf T)}, Refines a b → ∀ y ∈ b, ∃ x ∈ a, y.1 = x.1 := by
    intro a b h
    induction h with
    | nil => simp
    | cons ht _ ih =>
      intro y hy
      rcases List.mem_append.1 hy with hy | hy
      · obtain ⟨_, _, rfl⟩ := List.mem_map.1 hy
        exact ⟨_, List.mem_cons_self, rfl⟩
      · obtain ⟨x, hx, e⟩ := ih y hy
        exact ⟨x, List.mem_cons_of_mem _ hx, e⟩
  refine ⟨?_, fun y hy => by obtain ⟨x, hx, e⟩ := key h y hy; rw [e]; exact ha.lt x hx⟩
  have hs := ha.sorted
  clear ha
  induction h with
  | nil => exact List.Pairwise.nil
  | cons ht hr ih =>
    rw [List.pairwise_cons] at hs
    rw [List.pairwise_append]
    refine ⟨?_, ih hs.2, ?_⟩
    · rw [List.pairwise_map]
      exact List.pairwise_of_forall fun _ _ => le_rfl
    · intro x hx y hy
      obtain ⟨_, _, rfl⟩ := List.mem_map.1 hx
      obtain ⟨z, hz, e⟩ := key hr y hy
      rw [e]
      exact hs.1 z hz

theorem refines_inTree (g : Nat) {a b : List (BalanceSpec.Leaf T)} (h : Refines a b) :
    Refines ((inTree g a).map (Sigma.mk g)) ((inTree g b).map (Sigma.mk g)) := by
  induction h with
  | nil => exact .nil
  | @cons g' e part old new ht _ ih =>
    by_cases hg : g' = g
    · subst hg
      rw [inTree_cons_same, inTree_append, inTree_map_same, List.map_append]
      exact .cons ht ih
    · rw [inTree_cons_other hg, inTree_append, inTree_map_other hg, List.nil_append]
      exact ih

theorem tiles_inTree {a b : List (BalanceSpec.Leaf T)} (h : Refines a b) (g : Nat) {e : (T g).E} (ht : (T g).Tiles e (inTree g a)) :
    (T g).Tiles e (inTree g b) := by
  obtain ⟨part, h1, h2⟩ := Refines.tiles ht (refines_inTree g h)
  have := congrArg (inTree g) h1
  rw [inTree_map_same, inTree_map_same] at this
  rwa [this]

/-! ### The condition on a forest -/

/-- What the functions need of a forest on `P` processes: its trees are covered by the leaves, and even if it is refined to the level of the
finest leaf, there are at most `N` leaves. -/
structure Ok (U : Setup T) (P N : Nat) (all : List (List (LocalTree T))) : Prop where
  procs : all.length = P
  seq : ByTrees U.numTrees (leafSeq all)
  tiles : ∀ g, g < U.numTrees → (T g).Tiles (T g).root (inTree g (leafSeq all))
  order : ∀ trees ∈ all, (trees.map (fun t => t.cls)).Pairwise (· < ·)
  level : ∀ x ∈ leafSeq all, x.level ≤ U.maxlevel
  small : ∀ seq, Refines (leafSeq all) seq → (∀ M, (∀ x ∈ leafSeq all, x.level ≤ M) → ∀ x ∈ seq, x.level ≤ M) → seq.length ≤ N

variable {U : Setup T} {P N : Nat} {all : List (List (LocalTree T))}

theorem Ok.refine (h : Ok U P N all) {all' : List (List (LocalTree T))}
    (hcls : all'.map (List.map (fun t => t.cls)) = all.map (List.map (fun t => t.cls))) (hr : Refines (leafSeq all) (leafSeq all'))
    (hL : ∀ L, (∀ x ∈ leafSeq all, x.level ≤ L) → ∀ x ∈ leafSeq all', x.level ≤ L) : Ok U P N all' where
  procs := by
    have := congrArg List.length hcls
    rw [List.length_map, List.length_map] at this
    rw [this, h.procs]
  seq := byTrees_refines hr h.seq
  tiles g hg := tiles_inTree hr g (h.tiles g hg)
  order trees ht := by
    have : trees.map (fun t => t.cls) ∈ all.map (List.map (fun t => t.cls)) := by
      rw [← hcls]
      exact List.mem_map_of_mem ht
    obtain ⟨trees', h1, h2⟩ := List.mem_map.1 this
    rw [← h2]
    exact h.order trees' h1
  level := hL _ h.level
  small seq hs hM := h.small seq (hr.trans hs) (fun M h' => hM M (hL M h'))

/-! ### The distributed forest -/

theorem leafSeq_append (a b : List (List (LocalTree T))) : leafSeq (a ++ b) = leafSeq a ++ leafSeq b := List.flatMap_append ..

/-- The forest that the processes store. -/
def distOf (h : Ok U P N all) (hg : Good all) (hP : 0 < P) (hmax : ∀ g, U.maxlevel ≤ (T g).maxLevel) :
    DistForest T P U.numTrees U.maxlevel where
  leaves g := inTree g (leafSeq all)
  ordered g _ := hg.ordered g
  nonempty g hg := (h.tiles g hg).ne_nil (T g).valid_root
  level_le g _ x hx := h.level ⟨g, x⟩ (mem_inTree.1 hx)
  maxLevel g _ := hmax g
  part := {
    off := fun p => (leafSeq (all.take p)).length
    pos := hP
    zero := rfl
    top := by rw [h.seq.eq, List.take_of_length_le h.procs.le]
    mono := fun p _ => by
      rw [List.take_add_one, leafSeq_append, List.length_append]
      omega }

variable (h : Ok U P N all) (hg : Good all) (hP : 0 < P) (hmax : ∀ g, U.maxlevel ≤ (T g).maxLevel)

theorem dist_leaves : leafSequence U.numTrees (distOf h hg hP hmax).leaves = leafSeq all := h.seq.eq

theorem dist_complete : (distOf h hg hP hmax).Complete := h.tiles

theorem dist_local {p : Nat} (hp : p < P) : (distOf h hg hP hmax).localLeaves p = procSeq (all.getD p []) := by
  show slice (leafSequence U.numTrees (distOf h hg hP hmax).leaves) (leafSeq (all.take p)).length (leafSeq (all.take (p + 1))).length = _
  rw [dist_leaves]
  have hp' : p < all.length := by rw [h.procs]; exact hp
  have h1 : leafSeq all = leafSeq (all.take p) ++ (procSeq (all.getD p []) ++ leafSeq (all.drop (p + 1))) := by
    rw [List.getD_eq_getElem _ _ hp']
    conv_lhs => rw [← List.take_append_drop p all, List.drop_eq_getElem_cons hp', leafSeq_append]
    rfl
  have h2 : (leafSeq (all.take (p + 1))).length = (leafSeq (all.take p)).length + (procSeq (all.getD p [])).length := by
    rw [List.getD_eq_getElem _ _ hp', List.take_add_one, leafSeq_append, List.length_append, List.getElem?_eq_getElem hp']
    simp [leafSeq]
  rw [h1, h2, slice, List.drop_left, Nat.add_sub_cancel_left, List.take_left]

theorem dist_stores {p : Nat} (hp : p < P) : Stores (distOf h hg hP hmax) p (all.getD p []) := by
  have hm : all.getD p [] ∈ all := by
    have hp' : p < all.length := by rw [h.procs]; exact hp
    rw [List.getD_eq_getElem _ _ hp']
    exact List.getElem_mem hp'
  exact ⟨(dist_local h hg hP hmax hp).symm, (hg.stored _ hm).nonempty, h.order _ hm⟩

theorem length_procSeq (trees : List (LocalTree T)) : (trees.map (fun t => t.leaves.length)).sum = (procSeq trees).length := by
  rw [procSeq, List.length_flatMap]
  simp

theorem head_index {P K L : Nat} {D : DistForest T P K L} {p : Nat} (hp : p < P) {trees : List (LocalTree T)} (hst : Stores D p trees) :
    ∀ (i : Nat) t, trees[i]? = some t → (t.cls : Int) = (localForest trees).firstLocalTree + i := by
  intro i
  induction i with
  | zero =>
    intro t ht
    have : trees.head? = some t := by rw [List.head?_eq_getElem?]; exact ht
    simp [localForest, this]
  | succ i ih =>
    intro t ht
    have hi := (List.getElem?_eq_some_iff.1 ht).1
    have hs : trees[i]? = some trees[i] := List.getElem?_eq_getElem (by omega)
    have h1 := ih _ hs
    have h2 := consecutive hp hst hs ht
    push_cast
    omega

theorem isPart_of_stores {P K L : Nat} {D : DistForest T P K L} {p : Nat} (hp : p < P) {trees : List (LocalTree T)} (hst : Stores D p trees) :
    D.IsPart p (localForest trees) where
  leaves := by
    rw [← hst.leaves, LocalForest.leaves, procSeq]
    show (trees.map (fun t => (⟨t.cls, t.leaves⟩ : Σ g, List (T g).E))).flatMap _ = _
    rw [List.flatMap_map]
  num := by
    rw [← hst.leaves]
    show (((trees.map (fun t => t.leaves.length)).sum : Nat) : Int) = _
    rw [length_procSeq]
  nonempty := by
    intro t ht
    obtain ⟨u, hu, rfl⟩ := List.mem_map.1 ht
    exact hst.nonempty u hu
  index := by
    intro i t ht
    simp only [localForest, List.getElem?_map, Option.map_eq_some_iff] at ht
    obtain ⟨u, hu, rfl⟩ := ht
    exact head_index hp hst i u hu
  last := by simp [localForest]
  bounds := by
    cases trees with
    | nil => exact ⟨le_rfl, by show (0 : Int) ≤ K; omega⟩
    | cons t ts =>
      have := (hst.facts hp).2.1 t (by simp)
      refine ⟨?_, ?_⟩
      · show (0 : Int) ≤ t.cls
        omega
      · show (t.cls : Int) ≤ K
        omega

theorem stored_parts : ForestArrays.Stored (distOf h hg hP hmax) (globalOf U all) (partsOf all) where
  size := h.procs
  trees := rfl
  leaves := by
    rw [dist_leaves]
    show (((all.map (fun trees => (trees.map (fun t => t.leaves.length)).sum)).sum : Nat) : Int) = _
    rw [leafSeq, List.length_flatMap]
    simp only [length_procSeq]
  maxlevel := rfl
  complete := rfl
  part p hp := isPart_of_stores hp (dist_stores h hg hP hmax hp)

include hg hP hmax in
/-- The arrays that are created describe the forest. -/
theorem createTables_spec (hS : ∀ g, (U.base.scheme g).Lawful) : ∃ A, createTables U all = some A ∧ Matches (distOf h hg hP hmax) A ∧
    A.firstDescs.length = P + 1 ∧ A.elementOffsets = ForestArrays.createOffsets (globalOf U all) (partsOf all) := by
  obtain ⟨a, b, h1, h2, h3, h4⟩ := ForestArrays.C51_arrays (fun g _ => hS g) (dist_complete h hg hP hmax) (stored_parts h hg hP hmax)
  refine ⟨⟨all.length, U.numTrees, U.maxlevel, a, _, b ++ [U.behind]⟩, by rw [createTables, h1, h2]; rfl,
    ⟨by rw [h.procs], rfl, rfl, ⟨h3.trees, h3.elements, ?_⟩⟩, by simp [h4], rfl⟩
  intro p hp
  obtain ⟨i, hi, hi'⟩ := h3.firstDescs p hp
  exact ⟨i, by rw [List.getElem?_append_left (by omega)]; exact hi, hi'⟩

/-! ### The ghost layer -/

/-- What is needed of the parts, for forests with at most `N` leaves. -/
structure Setup.Lawful (U : Setup T) (In : ∀ g, (T g).E → Nat → (T g).E → Nat → Prop) (N : Nat) : Prop where
  env : U.base.Lawful In U.numTrees U.maxlevel
  maxlevel : ∀ g, U.maxlevel ≤ (T g).maxLevel
  pos : 0 < U.maxlevel
  inside : ∀ g e f n, f < (U.base.faces g).numFaces e → U.base.neighbor g e f = some n → g < U.numTrees
  faceChildren : ∀ g e f n, g < U.numTrees → (T g).Valid e → (T g).level e ≤ U.maxlevel → f < (U.base.faces g).numFaces e →
    U.base.neighbor g e f = some n → (U.base.faces g).numFaceChildren e f = (U.base.faces n.tree).numFaceChildren n.elem n.face
  codec : U.codec.Lawful
  /-- Messages for few elements can be sent. -/
  fits : ∀ trees : List (RemoteTree T), (∀ t ∈ trees, t.gtreeid < U.numTrees ∧ t.elements ≠ []) →
    (trees.flatMap RemoteTree.seq).length ≤ N → Fits U.codec trees
  order : ∀ p l, (U.order p l).Perm l
  fl : T8.Uniform.Rounding 53 U.fl

variable {In : ∀ g, (T g).E → Nat → (T g).E → Nat → Prop}

theorem Setup.Lawful.envOf (hU : U.Lawful In N) (A : Tables) (p : Int) : (envOf U A p).Lawful In U.numTrees U.maxlevel :=
  ⟨hU.env.scheme, hU.env.faces, hU.env.parentFace, hU.env.maxNumFaces, hU.env.parentFace_lt, hU.env.neighbors⟩

theorem fillRemoteV3_nil (X : Env T) : fillRemoteV3 X [] = some ⟨[], []⟩ := rfl

include hg in
/-- The creation of the ghost layer succeeds on all processes, and each has exactly the leaves of other processes that share a face with one of
its leaves. -/
theorem createGhost_spec (hU : U.Lawful In N) {p : Nat} (hp : p < P) : ∃ layer : Layer T,
    createGhost U all p = some (layer.trees.map (fun t => ⟨t.gtreeid, t.gtreeid, t.elements⟩)) ∧
    layer.Holds U.codec ((ghostOwners U.base.neighbor In (fun g => (U.base.faces g).numFaces) (distOf h hg hP hU.maxlevel) p).map
      (fun q : Nat => ((q : Int), ghostsFrom U.base.neighbor In (fun g => (U.base.faces g).numFaces) (distOf h hg hP hU.maxlevel) p q))) := by
  obtain ⟨A, hA, hm, hlen, _⟩ := createTables_spec h hg hP hU.maxlevel hU.env.scheme
  have hset : ∀ p : Nat, p < P → Setting (envOf U A p) In (distOf h hg hP hU.maxlevel) p := fun p hp =>
    ⟨hU.envOf A p, dist_complete h hg hP hU.maxlevel, hm, by show P < A.firstDescs.length; omega, rfl, hp⟩
  have hst : ∀ p : Nat, p < P → Stores (distOf h hg hP hU.maxlevel) p (all.getD p []) := fun p hp => dist_stores h hg hP hU.maxlevel hp
  have hex : ∀ p : Nat, ∃ G : Remotes T, p < P → fillRemoteV3 (envOf U A p) (all.getD p []) = some G := by
    intro p
    by_cases hp : p < P
    · obtain ⟨G, h1, _⟩ := C55_fill_remote_partial (hset p hp) (hst p hp)
      exact ⟨G, fun _ => h1⟩
    · exact ⟨⟨[], []⟩, fun h => absurd h hp⟩
  choose G hG using hex
  have hcol : Collected U.codec In (distOf h hg hP hU.maxlevel) U.base (fun p : Nat => envOf U A p) (fun p => all.getD p []) G := by
    refine ⟨hU.codec, hset, fun _ _ => ⟨rfl, rfl⟩, hst, hG, ?_⟩
    intro p hp r hr
    obtain ⟨G', h1, h2, h3, h4⟩ := C55_fill_remote_partial (hset p hp) (hst p hp)
    rw [hG p hp] at h1
    obtain rfl := Option.some.inj h1
    obtain ⟨b1, _⟩ := h4 r.rank (by rw [h2.processes]; exact List.mem_map_of_mem (f := fun r => r.rank) hr)
    obtain ⟨q, hq⟩ := Int.eq_ofNat_of_zero_le b1
    have hseq : r.seq = mustSend (envOf U A p) In (distOf h hg hP hU.maxlevel) p (all.getD p []) q := by
      rw [← h3 q, ← hq, Remotes.sent_of_mem h2 hr]
    refine hU.fits _ ?_ ?_
    · intro t ht
      refine ⟨?_, (h2.remotes r hr).trees t ht⟩
      obtain ⟨y, hy⟩ := List.exists_mem_of_ne_nil _ ((h2.remotes r hr).trees t ht)
      have hm : (⟨t.gtreeid, y⟩ : Sent T) ∈ r.seq := List.mem_flatMap.2 ⟨t, ht, List.mem_map.2 ⟨y, hy, rfl⟩⟩
      rw [hseq, mustSend] at hm
      exact (leaf_facts hp (indexed_facts (hst p hp) (List.mem_of_mem_filter hm))).1
    · have hl : r.seq.length ≤ (procSeq (all.getD p [])).length := by
        rw [hseq, mustSend, ← indexed_leaves, List.length_map]
        exact List.length_filter_le _ _
      have h5 : (procSeq (all.getD p [])).length ≤ (leafSeq all).length := by
        rw [← dist_local h hg hP hU.maxlevel hp, DistForest.localLeaves, ← dist_leaves h hg hP hU.maxlevel, Partition.slice_length]
        omega
      exact (hl.trans h5).trans (h.small _ (Refines.refl _) (fun _ h => h))
  obtain ⟨msgs, hmsg, hrec⟩ := C56_ghost_layer_partial hcol
  have hsend : ∀ p ∈ List.range all.length, sendGhosts U A all p = some (G p, msgs p) := by
    intro p hp
    have hp : p < P := by rw [← h.procs]; exact List.mem_range.1 hp
    unfold sendGhosts
    simp only
    split
    · rename_i hempty
      have h1 := hG p hp
      rw [List.isEmpty_iff.1 hempty, fillRemoteV3_nil] at h1
      have h2 := hmsg p hp
      rw [← Option.some.inj h1] at h2
      rw [← Option.some.inj h1, ← Option.some.inj h2]
      rfl
    · rw [hG p hp, Option.bind_eq_bind, Option.bind_some, hmsg p hp]
      rfl
  have hdel : delivered all.length (fun q => (((List.range all.length).map (fun p => (G p, msgs p))).getD q (⟨[], []⟩, [])).2) p =
      delivered P msgs p := by
    rw [h.procs, delivered, delivered]
    refine List.flatMap_congr fun q hq => ?_
    have : ((List.range P).map (fun p => (G p, msgs p))).getD q (⟨[], []⟩, []) = (G q, msgs q) := by
      rw [List.getD_eq_getElem?_getD, List.getElem?_map, List.getElem?_range (List.mem_range.1 hq)]
      rfl
    rw [this]
  obtain ⟨layer, h1, h2⟩ := hrec p hp (U.order p (delivered P msgs p)) (hU.order _ _)
  refine ⟨layer, ?_, h2⟩
  have hget : ((List.range all.length).map (fun p => (G p, msgs p)))[p]? = some (G p, msgs p) := by
    rw [List.getElem?_map, List.getElem?_range (by rw [h.procs]; exact hp)]
    rfl
  rw [createGhost, hA, Option.bind_eq_bind, Option.bind_some, mapM_some hsend, Option.bind_eq_bind, Option.bind_some, hget,
    Option.bind_eq_bind, Option.bind_some]
  simp only
  split
  · rename_i hempty
    have h3 := hG p hp
    rw [List.isEmpty_iff.1 hempty, fillRemoteV3_nil] at h3
    rw [← Option.some.inj h3, receive, if_pos (by rfl)] at h1
    have := congrArg Prod.fst (Option.some.inj h1)
    simp only at this
    rw [← this]
    rfl
  · rw [hdel, h1]
    rfl

theorem leafSeq_range : leafSeq all = (List.range all.length).flatMap (fun p => procSeq (all.getD p [])) := by
  have : all = (List.range all.length).map (fun p => all.getD p []) := by
    apply List.ext_getElem?
    intro i
    rw [List.getElem?_map]
    by_cases hi : i < all.length
    · rw [List.getElem?_range hi, Option.map_some, List.getD_eq_getElem _ _ hi, List.getElem?_eq_getElem hi]
    · rw [List.getElem?_eq_none (by omega), List.getElem?_eq_none (by simp; omega), Option.map_none]
  conv_lhs => rw [this]
  rw [leafSeq, List.flatMap_map]

theorem sublist_flatMap {α β : Type} {f k : α → List β} : ∀ {l m : List α}, l.Sublist m → (∀ a ∈ m, (f a).Sublist (k a)) →
    (l.flatMap f).Sublist (m.flatMap k) := by
  intro l m hs hf
  induction hs with
  | slnil => exact List.Sublist.refl _
  | cons a _ ih =>
    rw [List.flatMap_cons]
    exact (ih fun b hb => hf b (by simp [hb])).trans (List.sublist_append_right _ _)
  | cons_cons a _ ih =>
    rw [List.flatMap_cons, List.flatMap_cons]
    exact (hf a (by simp)).append (ih fun b hb => hf b (by simp [hb]))

include h hg hP in
/-- The ghost layer is as balance needs it. -/
theorem ghost_law (hU : U.Lawful In N) {p : Nat} {trees : List (LocalTree T)} (hp : all[p]? = some trees) :
    ∃ G, createGhost U all p = some G ∧ Balance.Stored G ∧
    (∀ t ∈ G, (T t.cls).Ordered t.leaves) ∧ (∀ x ∈ procSeq G, x ∈ leafSeq all) ∧
    ∀ g e, ⟨g, e⟩ ∈ procSeq trees → ∀ f, f < (U.base.faces g).numFaces e → ∀ x ∈ leafSeq all, Across U.base.neighbor In g e f x →
      x ∈ procSeq trees ∨ x ∈ procSeq G := by
  classical
  have hpl := (List.getElem?_eq_some_iff.1 hp).1
  have hpP : p < P := by rw [← h.procs]; exact hpl
  have htr : all.getD p [] = trees := by rw [List.getD_eq_getElem?_getD, hp]; rfl
  obtain ⟨layer, h1, h2⟩ := createGhost_spec h hg hP hU hpP
  have hseq : procSeq (layer.trees.map (fun t => (⟨t.gtreeid, t.gtreeid, t.elements⟩ : LocalTree T))) = layer.seq := by
    rw [procSeq, List.flatMap_map]
    rfl
  have hlayer := h2.seq
  rw [List.flatMap_map] at hlayer
  have hsub : layer.seq.Sublist (leafSeq all) := by
    rw [hlayer, leafSeq_range, h.procs]
    refine sublist_flatMap List.filter_sublist ?_
    intro q hq
    rw [← dist_local h hg hP hU.maxlevel (List.mem_range.1 hq)]
    exact List.filter_sublist
  refine ⟨_, h1, ⟨?_, ?_⟩, ?_, ?_, ?_⟩
  · rw [List.map_map, List.Nodup, List.pairwise_map]
    exact h2.good.ids.imp fun h => Nat.ne_of_lt h
  · intro t ht
    obtain ⟨u, hu, rfl⟩ := List.mem_map.1 ht
    exact h2.good.nonempty u hu
  · intro t ht
    have h3 := sublist_inTree ht
    rw [hseq] at h3
    exact (hg.ordered t.cls).sublist (h3.trans (hsub.filterMap _))
  · intro x hx
    rw [hseq] at hx
    exact hsub.subset hx
  · intro g e he f hf x hx hac
    rw [hseq, hlayer]
    rw [leafSeq_range] at hx
    obtain ⟨q, hq, hx⟩ := List.mem_flatMap.1 hx
    have hq : q < P := by rw [← h.procs]; exact List.mem_range.1 hq
    by_cases hpq : p = q
    · left
      rw [← htr, hpq]
      exact hx
    · right
      rw [← dist_local h hg hP hU.maxlevel hq] at hx
      have he' : (⟨g, e⟩ : BalanceSpec.Leaf T) ∈ (distOf h hg hP hU.maxlevel).localLeaves p := by
        rw [dist_local h hg hP hU.maxlevel hpP, htr]
        exact he
      have hsh : SharesFace U.base.neighbor In (fun g => (U.base.faces g).numFaces) ⟨g, e⟩ x := by
        obtain ⟨n, k, a1, a2, a3, a4⟩ := hac
        exact ⟨f, n, hf, a1, a2, Or.inr ⟨a3, k, a4⟩⟩
      have hgh : x ∈ ghostsFrom U.base.neighbor In (fun g => (U.base.faces g).numFaces) (distOf h hg hP hU.maxlevel) p q := by
        rw [ghostsFrom, List.mem_filter]
        exact ⟨hx, decide_eq_true ⟨hpq, hpP, ⟨g, e⟩, he', (C55_symmetric hU.env hpP hq hpq he' hx).1 hsh⟩⟩
      refine List.mem_flatMap.2 ⟨q, ?_, hgh⟩
      rw [ghostOwners, List.mem_filter]
      exact ⟨List.mem_range.2 hq, decide_eq_true (List.ne_nil_of_mem hgh)⟩

/-! ### Partition -/

/-- A leaf as partition sees it. -/
def enc (C : Codec T) (x : BalanceSpec.Leaf T) : Partition.Leaf := (x.1, C.eclass x.1, C.encode x.1 x.2)

/-- The leaf that partition sees so. -/
def dec (C : Codec T) (y : Partition.Leaf) : BalanceSpec.Leaf T := ⟨y.1.toNat, C.decode y.1.toNat y.2.2⟩

theorem treesSeq_toForest (C : Codec T) : ∀ (trees : List (LocalTree T)) (first : Int) (k : Nat → Int),
    (∀ (i : Nat) t, trees[i]? = some t → (t.cls : Int) = first + i) →
    Partition.treesSeq first (trees.mapIdx (fun i t => ⟨C.eclass t.cls, k i, t.leaves.map (C.encode t.cls)⟩)) = (procSeq trees).map (enc C)
  | [], _, _, _ => rfl
  | t :: ts, first, k, hi => by
    have h0 : (t.cls : Int) = first := by have := hi 0 t rfl; simpa using this
    rw [List.mapIdx_cons, Partition.treesSeq, treesSeq_toForest C ts (first + 1) (fun i => k (i + 1)) (fun i u hu => by
      have := hi (i + 1) u hu
      push_cast at this
      omega)]
    have hp : procSeq (t :: ts) = t.leaves.map (Sigma.mk t.cls) ++ procSeq ts := List.flatMap_cons
    rw [hp, List.map_append]
    congr 1
    rw [List.map_map, List.map_map, ← h0]
    rfl

theorem procSeq_ofForest (C : Codec T) : ∀ (trees : List Partition.Tree) (first : Int),
    procSeq (trees.mapIdx (fun i t => (⟨(first + i).toNat, (first + i).toNat, t.leaves.map (C.decode (first + i).toNat)⟩ : LocalTree T))) =
      (Partition.treesSeq first trees).map (dec C)
  | [], _ => rfl
  | t :: ts, first => by
    have ih := procSeq_ofForest C ts (first + 1)
    rw [List.mapIdx_cons, Partition.treesSeq, List.map_append, ← ih, procSeq, List.flatMap_cons]
    congr 1
    · rw [List.map_map, List.map_map]
      have : first + ((0 : Nat) : Int) = first := by simp
      rw [this]
      rfl
    · have : (fun (i : Nat) (t : Partition.Tree) => (⟨(first + ((i + 1 : Nat) : Int)).toNat, (first + ((i + 1 : Nat) : Int)).toNat,
          t.leaves.map (C.decode (first + ((i + 1 : Nat) : Int)).toNat)⟩ : LocalTree T)) =
          fun i t => ⟨(first + 1 + i).toNat, (first + 1 + i).toNat, t.leaves.map (C.decode (first + 1 + i).toNat)⟩ := by
        funext i t
        have : first + ((i + 1 : Nat) : Int) = first + 1 + i := by push_cast; ring
        rw [this]
      rw [this]
      rfl

theorem take_mapIdx' {α β : Type} (f : Nat → α → β) (l : List α) (i : Nat) : (l.mapIdx f).take i = (l.take i).mapIdx f := by
  apply List.ext_getElem?
  intro j
  rw [List.getElem?_take, List.getElem?_mapIdx, List.getElem?_mapIdx, List.getElem?_take]
  split <;> rfl

theorem toForest_seq {D : DistForest T P U.numTrees U.maxlevel} {p : Nat} (hp : p < P) {trees : List (LocalTree T)}
    (hst : Stores D p trees) : (toForest U trees).seq = (procSeq trees).map (enc U.codec) :=
  treesSeq_toForest U.codec trees _ _ (head_index hp hst)

theorem toForest_wf (hC : U.codec.Lawful) {D : DistForest T P U.numTrees U.maxlevel} {p : Nat} (hp : p < P) {trees : List (LocalTree T)}
    (hst : Stores D p trees) : Partition.WF U.codec.size (toForest U trees) where
  last := by simp [toForest, localForest]
  num := by
    rw [toForest_seq hp hst, List.length_map, ← length_procSeq]
    rfl
  nonempty := by
    intro t ht
    obtain ⟨i, hi, rfl⟩ := List.mem_mapIdx.1 ht
    have := hst.nonempty trees[i] (List.getElem_mem hi)
    simpa using this
  offsets := by
    intro i t ht
    have ht' := ht
    simp only [toForest, List.getElem?_mapIdx, Option.map_eq_some_iff] at ht'
    obtain ⟨u, hu, rfl⟩ := ht'
    show _ = ((Partition.treesSeq _ ((trees.mapIdx _).take i)).length : Int)
    rw [take_mapIdx', treesSeq_toForest U.codec (trees.take i) (toForest U trees).firstLocalTree
      (fun i => (((trees.take i).map (fun t => t.leaves.length)).sum : Nat)) (by
      intro j v hv
      rw [List.getElem?_take] at hv
      split at hv
      · exact head_index hp hst j v hv
      · cases hv), List.length_map, ← length_procSeq]
  sizes := by
    intro t ht b hb
    obtain ⟨i, hi, rfl⟩ := List.mem_mapIdx.1 ht
    obtain ⟨e, _, rfl⟩ := List.mem_map.1 hb
    exact hC.length _ _

include h in
theorem linear_enc : Partition.Linear ((leafSeq all).map (enc U.codec)) := by
  intro i a b ha hb
  rw [List.getElem?_map, Option.map_eq_some_iff] at ha hb
  obtain ⟨x, hx, rfl⟩ := ha
  obtain ⟨y, hy, rfl⟩ := hb
  have hs := List.pairwise_iff_getElem.1 h.seq.sorted
  obtain ⟨hi, hxi⟩ := List.getElem?_eq_some_iff.1 hx
  obtain ⟨hi', hyi⟩ := List.getElem?_eq_some_iff.1 hy
  have hle : x.1 ≤ y.1 := by
    have := hs i (i + 1) hi hi' (by omega)
    rwa [hxi, hyi] at this
  by_cases h1 : y.1 = x.1
  · left
    refine ⟨by simp [enc, h1], by simp [enc, h1]⟩
  right
  have hlt : y.1 ≤ x.1 + 1 := by
    by_contra hc
    have hK := h.seq.lt y (hyi ▸ List.getElem_mem hi')
    obtain ⟨e, he⟩ := List.exists_mem_of_ne_nil _ ((h.tiles (x.1 + 1) (by omega)).ne_nil (T _).valid_root)
    obtain ⟨c, hc1, hc2⟩ := List.mem_iff_getElem.1 (mem_inTree.1 he)
    rcases Nat.lt_trichotomy c i with h' | h' | h'
    · have := hs c i hc1 hi h'
      rw [hc2, hxi] at this
      simp only at this
      omega
    · subst h'
      rw [hc2] at hxi
      have := congrArg Sigma.fst hxi
      simp only at this
      omega
    · rcases Nat.lt_or_ge (i + 1) c with h'' | h''
      · have := hs (i + 1) c hi' hc1 h''
        rw [hc2, hyi] at this
        simp only at this
        omega
      · obtain rfl : c = i + 1 := by omega
        rw [hc2] at hyi
        have := congrArg Sigma.fst hyi
        simp only at this
        omega
  simp only [enc]
  omega

include h hg hP in
theorem partition_spec (hU : U.Lawful In N) (hPlt : P < 2 ^ 31) : ∃ all', repartition U all = some all' ∧ leafSeq all' = leafSeq all ∧
    (∀ trees ∈ all', Balance.Stored trees) ∧ Ok U P N all' ∧
    ∀ i, i ≤ P → |((leafSeq (all'.take i)).length : ℚ) - (leafSeq all).length * i / P| ≤ 1 + (leafSeq all).length / 2 ^ 51 := by
  obtain ⟨A, _, hm, _, hoff⟩ := createTables_spec h hg hP hU.maxlevel hU.env.scheme
  have htab : ForestArrays.createOffsets (globalOf U all) (partsOf all) = (distOf h hg hP hU.maxlevel).part.table := by
    rw [← hoff]
    exact hm.arrays.elements
  have hst : ∀ p : Nat, p < P → Stores (distOf h hg hP hU.maxlevel) p (all.getD p []) := fun p hp => dist_stores h hg hP hU.maxlevel hp
  have hseq : Partition.globalSeq P (fun p => toForest U (all.getD p.toNat [])) = (leafSeq all).map (enc U.codec) := by
    rw [Partition.globalSeq, leafSeq_range, h.procs, List.map_flatMap]
    refine List.flatMap_congr fun p hp => ?_
    exact toForest_seq (List.mem_range.1 hp) (hst p (List.mem_range.1 hp))
  have hdist : Partition.Distributed U.codec.size (fun p => toForest U (all.getD p.toNat [])) (distOf h hg hP hU.maxlevel).part := by
    refine ⟨fun p hp => toForest_wf hU.codec hp (hst p hp), fun p hp => ?_, ?_⟩
    · exact ForestArrays.part_num hp (isPart_of_stores hp (hst p hp))
    · rw [hseq]
      exact linear_enc h
  obtain ⟨B, hB, hBound⟩ := PartitionOffset.C21_bounds hU.fl (N := (leafSequence U.numTrees (distOf h hg hP hU.maxlevel).leaves).length) hP hPlt
  obtain ⟨forests', f1, f2, f3⟩ := Partition.C23_sequence hdist B
  have hnew : PartitionOffset.unweighted U.fl (globalOf U all).numLeaves all.length none = B.table := by
    rw [hB, h.procs, (stored_parts h hg hP hU.maxlevel).leaves]
  have hmap : repartition U all = some ((List.range P).map (fun q : Nat => ofForest U (forests' q))) := by
    unfold repartition
    simp only
    rw [htab, hnew, h.procs]
    refine mapM_some fun q hq => ?_
    rw [f1 q (List.mem_range.1 hq)]
    rfl
  have hleaf : leafSeq ((List.range P).map (fun q : Nat => ofForest U (forests' q))) = leafSeq all := by
    rw [leafSeq, List.flatMap_map]
    have h1 : ((List.range P).flatMap fun q : Nat => procSeq (ofForest U (forests' q))) = (Partition.globalSeq P forests').map (dec U.codec) := by
      rw [Partition.globalSeq, List.map_flatMap]
      exact List.flatMap_congr fun q _ => procSeq_ofForest U.codec _ _
    rw [h1, f2, hseq, List.map_map]
    conv_rhs => rw [← List.map_id (leafSeq all)]
    refine List.map_congr_left fun x hx => ?_
    obtain ⟨g, e⟩ := x
    show (⟨g, U.codec.decode g (U.codec.encode g e)⟩ : BalanceSpec.Leaf T) = ⟨g, e⟩
    rw [hU.codec.decode g e (hg.valid hx)]
  have hord : ∀ trees ∈ (List.range P).map (fun q : Nat => ofForest U (forests' q)), (trees.map (fun t => t.cls)).Pairwise (· < ·) ∧
      ∀ t ∈ trees, t.leaves ≠ [] := by
    intro trees ht
    obtain ⟨q, hq, rfl⟩ := List.mem_map.1 ht
    have hq := List.mem_range.1 hq
    have hw := f3.wf q hq
    have hpos : (forests' q).trees ≠ [] → 0 ≤ (forests' q).firstLocalTree := by
      intro hne
      obtain ⟨t, ts, hts⟩ := List.exists_cons_of_ne_nil hne
      obtain ⟨b, hb⟩ := List.exists_mem_of_ne_nil _ (hw.nonempty t (by rw [hts]; simp))
      have hmem : ((forests' q).firstLocalTree, t.eclass, b) ∈ Partition.globalSeq P forests' := by
        refine List.mem_flatMap.2 ⟨q, List.mem_range.2 hq, ?_⟩
        rw [Partition.Forest.seq, hts, Partition.treesSeq]
        exact List.mem_append_left _ (List.mem_map.2 ⟨b, hb, rfl⟩)
      rw [f2, hseq] at hmem
      obtain ⟨x, _, hx⟩ := List.mem_map.1 hmem
      have := congrArg Prod.fst hx
      simp only [enc] at this
      omega
    refine ⟨?_, ?_⟩
    · rw [List.pairwise_map, List.pairwise_iff_getElem]
      intro i j hi hj hij
      have hne : (forests' q).trees ≠ [] := by
        intro h0
        simp [ofForest, h0] at hi
      have := hpos hne
      simp only [ofForest, List.getElem_mapIdx]
      omega
    · intro t ht
      obtain ⟨i, hi, rfl⟩ := List.mem_mapIdx.1 ht
      have := hw.nonempty (forests' q).trees[i] (List.getElem_mem hi)
      simpa using this
  have htake : ∀ i, i ≤ P → (leafSeq (((List.range P).map (fun q : Nat => ofForest U (forests' q))).take i)).length = B.off i := by
    intro i
    induction i with
    | zero => intro _; rw [B.zero]; rfl
    | succ i ih =>
      intro hi
      rw [List.take_add_one, leafSeq_append, List.length_append, ih (by omega), List.getElem?_map, List.getElem?_range (by omega), f3.len (by omega)]
      congr 1
      show (leafSeq [ofForest U (forests' i)]).length = _
      rw [leafSeq, List.flatMap_cons, List.flatMap_nil, List.append_nil]
      refine (congrArg List.length (procSeq_ofForest U.codec _ _)).trans ?_
      rw [List.length_map]
      rfl
  refine ⟨_, hmap, hleaf, ?_, ?_, fun i hi => ?_⟩
  · intro trees ht
    exact ⟨(hord trees ht).1.imp fun h => Nat.ne_of_lt h, (hord trees ht).2⟩
  · refine ⟨by simp, ?_, ?_, fun trees ht => (hord trees ht).1, ?_, ?_⟩
    · rw [hleaf]; exact h.seq
    · rw [hleaf]; exact h.tiles
    · rw [hleaf]; exact h.level
    · rw [hleaf]; exact h.small
  · rw [htake i hi]
    have := hBound i hi
    generalize B.off i = b at this ⊢
    rw [dist_leaves h hg hP hU.maxlevel] at this
    exact this

include h hg hP in
/-- Partition is as balance needs it. -/
theorem partition_law (hU : U.Lawful In N) (hPlt : P < 2 ^ 31) : ∃ all', repartition U all = some all' ∧ leafSeq all' = leafSeq all ∧
    (∀ trees ∈ all', Balance.Stored trees) ∧ Ok U P N all' := by
  obtain ⟨all', h1, h2, h3, h4, _⟩ := partition_spec h hg hP hU hPlt
  exact ⟨all', h1, h2, h3, h4⟩

/-- The library is as balance needs it. -/
theorem lib_lawful (hU : U.Lawful In N) (hP : 0 < P) (hPlt : P < 2 ^ 31) : U.lib.Lawful In (Ok U P N) where
  scheme := hU.env.scheme
  faces := hU.env.faces
  maxlevel := hU.maxlevel
  pos := hU.pos
  neighbor := by
    intro g e f n he hl hf hn
    have hgK : g < U.numTrees := hU.inside g e f n hf hn
    obtain ⟨_, h2, h3, h4⟩ := hU.env.neighbors.valid g e f n hgK he hl hf hn
    exact ⟨h2, h3, h4, hU.faceChildren g e f n hgK he hl hf hn⟩
  ghost all hg ho p trees hp := ghost_law ho hg hP hU hp
  partition all hg ho := partition_law ho hg hP hU hPlt
  refine all all' _ ho _ hcls hr hL := ho.refine hcls hr hL

/-! ### From distributed forests -/

section Dist
variable {K L : Nat} {D : DistForest T P K L} {trees : Nat → List (LocalTree T)}

theorem slices_cat {α : Type} (l : List α) {off : Nat → Nat} (h0 : off 0 = 0) : ∀ n, (∀ p, p < n → off p ≤ off (p + 1)) →
    (List.range n).flatMap (fun p => slice l (off p) (off (p + 1))) = slice l 0 (off n) ∧ 0 ≤ off n
  | 0, _ => ⟨by rw [h0, Partition.slice_empty _ (Or.inl le_rfl)]; rfl, by omega⟩
  | n + 1, h => by
    rw [List.range_succ, List.flatMap_append, (slices_cat l h0 n (fun p hp => h p (by omega))).1, List.flatMap_cons, List.flatMap_nil,
      List.append_nil, Partition.slice_cat _ (by omega) (h n (by omega))]
    exact ⟨rfl, by omega⟩

theorem leafSeq_of_stores (hst : ∀ p, p < P → Stores D p (trees p)) : leafSeq ((List.range P).map trees) = leafSequence K D.leaves := by
  rw [leafSeq, List.flatMap_map, List.flatMap_congr (fun p hp => (hst p (List.mem_range.1 hp)).leaves)]
  have := (slices_cat (leafSequence K D.leaves) D.part.zero P D.part.mono).1
  rw [D.part.top, Partition.slice_self _ le_rfl] at this
  exact this

theorem byTrees_dist : ByTrees K (leafSequence K D.leaves) where
  sorted := by
    rw [leafSequence, List.pairwise_flatMap]
    refine ⟨fun g _ => ?_, (List.pairwise_lt_range (n := K)).imp fun {a b} hab x hx y hy => ?_⟩
    · rw [List.pairwise_map]
      exact List.pairwise_of_forall fun _ _ => le_rfl
    · obtain ⟨_, _, rfl⟩ := List.mem_map.1 hx
      obtain ⟨_, _, rfl⟩ := List.mem_map.1 hy
      exact hab.le
  lt x hx := (mem_seq.1 hx).1

theorem good_of_stores (hst : ∀ p, p < P → Stores D p (trees p)) : Good ((List.range P).map trees) where
  stored ts ht := by
    obtain ⟨p, hp, rfl⟩ := List.mem_map.1 ht
    have := hst p (List.mem_range.1 hp)
    exact ⟨this.order.imp fun h => Nat.ne_of_lt h, this.nonempty⟩
  ordered g := by
    rw [leafSeq_of_stores hst]
    by_cases hg : g < K
    · rw [inTree_leafSequence hg]
      exact D.ordered g hg
    · have : inTree g (leafSequence K D.leaves) = [] := by
        rw [List.eq_nil_iff_forall_not_mem]
        intro e he
        exact hg (mem_seq.1 (mem_inTree.1 he)).1
      rw [this]
      exact ⟨by simp, List.Pairwise.nil⟩

end Dist

/-- The condition holds for complete forests whose refinements up to level `M` have at most `N` leaves. -/
theorem ok_of_stores {D : DistForest T P U.numTrees U.maxlevel} (hD : D.Complete) {trees : Nat → List (LocalTree T)}
    (hst : ∀ p, p < P → Stores D p (trees p)) {M : Nat} (hM : ∀ x ∈ leafSequence U.numTrees D.leaves, Leaf.level x ≤ M)
    (hN : ∀ seq, Refines (leafSequence U.numTrees D.leaves) seq → (∀ x ∈ seq, Leaf.level x ≤ M) → seq.length ≤ N) :
    Ok U P N ((List.range P).map trees) where
  procs := by simp
  seq := by rw [leafSeq_of_stores hst]; exact byTrees_dist
  tiles g hg := by rw [leafSeq_of_stores hst, inTree_leafSequence hg]; exact hD g hg
  order ts ht := by
    obtain ⟨p, hp, rfl⟩ := List.mem_map.1 ht
    exact (hst p (List.mem_range.1 hp)).order
  level x hx := by
    rw [leafSeq_of_stores hst] at hx
    exact D.level_le x.1 (mem_seq.1 hx).1 x.2 (mem_seq.1 hx).2
  small seq hr hl := by
    rw [leafSeq_of_stores hst] at hr hl
    exact hN seq hr (hl M hM)

end T8.ForestLib
