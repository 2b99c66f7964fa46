/-
Lemmas on the model of balance (`Model/Balance.lean`).
-/
import Verif.Model.Balance
import Verif.Lemmas.BalanceSeq
import Verif.Lemmas.OwnerFace
import Verif.Props.LeafSearch
import Verif.Props.Replace

namespace T8.Balance
open RTree T8.Adapt T8.Populate T8.BalanceSpec

variable {T : Nat → RTree}

/-- The leaves of one process, in order. -/
def procSeq (trees : List (LocalTree T)) : List (BalanceSpec.Leaf T) := trees.flatMap (fun t => t.leaves.map (Sigma.mk t.cls))

/-- The leaves of all processes, in order. -/
def leafSeq (all : List (List (LocalTree T))) : List (BalanceSpec.Leaf T) := all.flatMap procSeq

/-- A process stores each tree once, and only trees of which it has leaves. -/
structure Stored (trees : List (LocalTree T)) : Prop where
  distinct : (trees.map (fun t => t.cls)).Nodup
  nonempty : ∀ t ∈ trees, t.leaves ≠ []

/-- A forest on all processes: the leaves of each tree are in the order of the curve. They need not cover the tree. -/
structure Good (all : List (List (LocalTree T))) : Prop where
  stored : ∀ trees ∈ all, Stored trees
  ordered : ∀ g, (T g).Ordered (inTree g (leafSeq all))

/-- What balance relies on, for forests that meet the condition `Ok`. -/
structure Lib.Lawful (X : Lib T) (In : ∀ g, (T g).E → Nat → (T g).E → Nat → Prop) (Ok : List (List (LocalTree T)) → Prop) : Prop where
  scheme : ∀ g, (X.scheme g).Lawful
  faces : ∀ g, (X.faces g).Lawful (In g)
  maxlevel : ∀ g, X.maxlevel ≤ (T g).maxLevel
  pos : 0 < X.maxlevel
  /-- The neighbour across a face has the same level, and as many children at the common face. -/
  neighbor : ∀ g e f n, (T g).Valid e → (T g).level e ≤ X.maxlevel → f < (X.faces g).numFaces e → X.neighbor g e f = some n →
    (T n.tree).Valid n.elem ∧
    (T n.tree).level n.elem = (T g).level e ∧ n.face < (X.faces n.tree).numFaces n.elem ∧
    (X.faces g).numFaceChildren e f = (X.faces n.tree).numFaceChildren n.elem n.face
  /-- The ghost layer consists of leaves of the forest, and together with the local leaves it has all leaves across the faces of local
  leaves. -/
  ghost : ∀ all, Good all → Ok all → ∀ (p : Nat) trees, all[p]? = some trees → ∃ G, X.ghost all p = some G ∧ Stored G ∧
    (∀ t ∈ G, (T t.cls).Ordered t.leaves) ∧ (∀ x ∈ procSeq G, x ∈ leafSeq all) ∧
    ∀ g e, ⟨g, e⟩ ∈ procSeq trees → ∀ f, f < (X.faces g).numFaces e → ∀ x ∈ leafSeq all, Across X.neighbor In g e f x →
      x ∈ procSeq trees ∨ x ∈ procSeq G
  /-- Partition redistributes the leaves in the same order. -/
  partition : ∀ all, Good all → Ok all → ∃ all', X.partition all = some all' ∧ leafSeq all' = leafSeq all ∧ (∀ trees ∈ all', Stored trees) ∧
    Ok all'
  /-- The condition is preserved if leaves are refined, but not beyond the level of the finest leaf. -/
  refine : ∀ all all', Good all → Ok all → Good all' → all'.map (List.map (fun t => t.cls)) = all.map (List.map (fun t => t.cls)) →
    BalanceSpec.Refines (leafSeq all) (leafSeq all') → (∀ L, (∀ x ∈ leafSeq all, x.level ≤ L) → ∀ x ∈ leafSeq all', x.level ≤ L) → Ok all'

/-! ### Stored trees -/

theorem mem_procSeq {trees : List (LocalTree T)} {g : Nat} {x : (T g).E} :
    (⟨g, x⟩ : BalanceSpec.Leaf T) ∈ procSeq trees ↔ ∃ t ∈ trees, ∃ h : t.cls = g, x ∈ (h ▸ t.leaves : List (T g).E) := by
  rw [procSeq, List.mem_flatMap]
  refine exists_congr fun t => and_congr_right fun _ => ?_
  constructor
  · intro h
    obtain ⟨y, hy, he⟩ := List.mem_map.1 h
    obtain ⟨rfl, h2⟩ := Sigma.mk.inj he
    obtain rfl := eq_of_heq h2
    exact ⟨rfl, hy⟩
  · rintro ⟨rfl, h⟩
    exact List.mem_map_of_mem h

theorem leavesIn_tree {g : Nat} {ls : List (T g).E} : ∀ {trees : List (LocalTree T)}, leavesIn trees g = some ls →
    ∃ t ∈ trees, ∃ h : t.cls = g, ls = h ▸ t.leaves
  | [], h => by cases h
  | t :: ts, h => by
    rw [leavesIn] at h
    split at h
    · rename_i hc
      exact ⟨t, by simp, hc, (Option.some.inj h).symm⟩
    · obtain ⟨u, hu, r⟩ := leavesIn_tree h
      exact ⟨u, by simp [hu], r⟩

theorem leavesIn_of_mem {t : LocalTree T} : ∀ {trees : List (LocalTree T)}, (trees.map (fun t => t.cls)).Nodup → t ∈ trees →
    leavesIn trees t.cls = some t.leaves
  | [], _, h => by cases h
  | u :: us, hd, h => by
    rw [List.map_cons, List.nodup_cons] at hd
    rw [leavesIn]
    rcases List.mem_cons.1 h with rfl | h
    · simp
    · rw [dif_neg ?_]
      · exact leavesIn_of_mem hd.2 h
      · intro hc
        exact hd.1 (hc ▸ List.mem_map_of_mem (f := fun t : LocalTree T => t.cls) h)

theorem leavesIn_mem {trees : List (LocalTree T)} (h : Stored trees) {g : Nat} {x : (T g).E} :
    (∃ ls, leavesIn trees g = some ls ∧ x ∈ ls) ↔ ⟨g, x⟩ ∈ procSeq trees := by
  rw [mem_procSeq]
  constructor
  · rintro ⟨ls, h1, h2⟩
    obtain ⟨t, ht, rfl, rfl⟩ := leavesIn_tree h1
    exact ⟨t, ht, rfl, h2⟩
  · rintro ⟨t, ht, rfl, h2⟩
    exact ⟨t.leaves, leavesIn_of_mem h.distinct ht, h2⟩

theorem sublist_inTree {trees : List (LocalTree T)} {t : LocalTree T} (h : t ∈ trees) : t.leaves.Sublist (inTree t.cls (procSeq trees)) := by
  induction trees with
  | nil => cases h
  | cons u us ih =>
    rw [procSeq, List.flatMap_cons, inTree_append]
    rcases List.mem_cons.1 h with rfl | h
    · rw [inTree_map_same]; exact List.sublist_append_left _ _
    · exact (ih h).trans (List.sublist_append_right _ _)

theorem inTree_sublist {all : List (List (LocalTree T))} {trees : List (LocalTree T)} (h : trees ∈ all) (g : Nat) :
    (inTree g (procSeq trees)).Sublist (inTree g (leafSeq all)) := by
  induction all with
  | nil => cases h
  | cons u us ih =>
    rw [leafSeq, List.flatMap_cons, inTree_append]
    rcases List.mem_cons.1 h with rfl | h
    · exact List.sublist_append_left _ _
    · exact (ih h).trans (List.sublist_append_right _ _)

theorem Good.tree {all : List (List (LocalTree T))} (h : Good all) {trees : List (LocalTree T)} (ht : trees ∈ all) {t : LocalTree T}
    (hm : t ∈ trees) : (T t.cls).Ordered t.leaves :=
  (h.ordered t.cls).sublist ((sublist_inTree hm).trans (inTree_sublist ht _))

theorem procSeq_mem_leafSeq {all : List (List (LocalTree T))} {trees : List (LocalTree T)} (h : trees ∈ all) {x : BalanceSpec.Leaf T}
    (hx : x ∈ procSeq trees) : x ∈ leafSeq all := List.mem_flatMap.2 ⟨trees, h, hx⟩

theorem Good.valid {all : List (List (LocalTree T))} (h : Good all) {g : Nat} {e : (T g).E} (he : ⟨g, e⟩ ∈ leafSeq all) : (T g).Valid e :=
  (h.ordered g).1 e (mem_inTree.2 he)

/-! ### The test -/

theorem anyM_spec {α : Type} {f : α → Option Bool} {Q : α → Prop} : ∀ {l : List α}, (∀ x ∈ l, ∃ b, f x = some b ∧ (b = true ↔ Q x)) →
    ∃ b, l.anyM f = some b ∧ (b = true ↔ ∃ x ∈ l, Q x)
  | [], _ => ⟨false, rfl, by simp⟩
  | x :: l, h => by
    obtain ⟨b, hb, hq⟩ := h x (by simp)
    obtain ⟨c, hc, hr⟩ := anyM_spec (l := l) (Q := Q) (fun y hy => h y (by simp [hy]))
    rw [List.anyM, hb]
    cases b with
    | true => exact ⟨true, rfl, by simp [hq.1 rfl]⟩
    | false =>
      refine ⟨c, hc, hr.trans ?_⟩
      have : ¬ Q x := fun h => by cases hq.2 h
      simp [this]

/-- What a process stores is in order. -/
structure ProcOk (P : Process T) : Prop where
  trees : Stored P.trees
  treesOrdered : ∀ t ∈ P.trees, (T t.cls).Ordered t.leaves
  ghosts : ∀ gs, P.ghosts = some gs → Stored gs ∧ ∀ t ∈ gs, (T t.cls).Ordered t.leaves

/-- A leaf that the process knows. -/
def Known (P : Process T) (x : BalanceSpec.Leaf T) : Prop := x ∈ procSeq P.trees ∨ ∃ gs, P.ghosts = some gs ∧ x ∈ procSeq gs

/-- Among the leaves that the process knows is one that is properly inside of a half face neighbour of `e`. -/
def Finer (X : Lib T) (P : Process T) (g : Nat) (e : (T g).E) : Prop :=
  ∃ f, f < (X.faces g).numFaces e ∧ ∃ n, X.neighbor g e f = some n ∧ ∃ h ∈ (X.faces n.tree).childrenAtFace n.elem n.face,
    ∃ x, Known P ⟨n.tree, x⟩ ∧ (T n.tree).Desc h x ∧ x ≠ h

section Test
variable {X : Lib T} {In : ∀ g, (T g).E → Nat → (T g).E → Nat → Prop} {Ok : List (List (LocalTree T)) → Prop} (hX : X.Lawful In Ok) {P : Process T} (hP : ProcOk P)
include hX

theorem half_spec {g : Nat} {e : (T g).E} (he : (T g).Valid e) (hl : (T g).level e < X.maxlevel) {f : Nat} (hf : f < (X.faces g).numFaces e)
    {n : Neighbor T} (hn : X.neighbor g e f = some n) {h : (T n.tree).E} (hh : h ∈ (X.faces n.tree).childrenAtFace n.elem n.face) :
    (T n.tree).Valid h ∧ (T n.tree).level h = (T g).level e + 1 ∧ ∃ i ∈ (X.faces n.tree).childIdsAtFace n.elem n.face,
      i < (T n.tree).nc n.elem ∧ h = (T n.tree).child n.elem i := by
  obtain ⟨h1, h2, h3, _⟩ := hX.neighbor g e f n he (by omega) hf hn
  have hm := hX.maxlevel n.tree
  have hlt : (T n.tree).level n.elem < (T n.tree).maxLevel := by omega
  rw [(hX.faces n.tree).children _ _ h1 hlt h3] at hh
  obtain ⟨i, hi, rfl⟩ := List.mem_map.1 hh
  have hi' := (((hX.faces n.tree).childIds_mem _ _ h1 hlt h3 i).1 hi).1
  exact ⟨(T n.tree).valid_child _ _ h1 hlt hi', by rw [(T n.tree).level_child _ _ h1 hlt hi', h2], i, hi, hi', rfl⟩

include hP in
theorem faceTest_spec {g : Nat} {e : (T g).E} (he : (T g).Valid e) (hl : (T g).level e < X.maxlevel) {f : Nat}
    (hf : f < (X.faces g).numFaces e) : ∃ b, faceTest X P g e f = some b ∧ (b = true ↔ ∃ n, X.neighbor g e f = some n ∧
      ∃ h ∈ (X.faces n.tree).childrenAtFace n.elem n.face, ∃ x, Known P ⟨n.tree, x⟩ ∧ (T n.tree).Desc h x ∧ x ≠ h) := by
  unfold faceTest halfFaceNeighbors
  dsimp only
  cases hn : X.neighbor g e f with
  | none =>
    refine ⟨false, ?_, by simp⟩
    split <;> rfl
  | some n =>
    obtain ⟨h1, h2, h3, h4⟩ := hX.neighbor g e f n he (by omega) hf hn
    have hm := hX.maxlevel n.tree
    have hlt : (T n.tree).level n.elem < (T n.tree).maxLevel := by omega
    by_cases h0 : (X.faces g).numFaceChildren e f = 0
    · rw [if_pos h0]
      refine ⟨false, rfl, ?_⟩
      have hnil : (X.faces n.tree).childrenAtFace n.elem n.face = [] := by
        have := (hX.faces n.tree).childIds_length _ _ h1 hlt h3
        rw [← h4, h0] at this
        rw [(hX.faces n.tree).children _ _ h1 hlt h3, List.length_eq_zero_iff.1 this]
        rfl
      constructor
      · intro h; cases h
      · rintro ⟨m, hm, h, hh, _⟩
        obtain rfl := Option.some.inj hm
        rw [hnil] at hh
        cases hh
    · rw [if_neg h0]
      simp only [assertO_true (show (T n.tree).level n.elem < X.maxlevel by omega), assertO_true h4, Option.bind_eq_bind, Option.bind_some,
        Option.pure_def]
      have key : ∀ h ∈ (X.faces n.tree).childrenAtFace n.elem n.face, ∃ b, T8.Leaf.hasLeafDesc (X.scheme n.tree) X.maxlevel h
          (leavesIn P.trees n.tree) (P.ghosts.bind (leavesIn · n.tree)) = some b ∧
          (b = true ↔ ∃ x, Known P ⟨n.tree, x⟩ ∧ (T n.tree).Desc h x ∧ x ≠ h) := by
        intro h hh
        obtain ⟨v1, v2, _⟩ := half_spec hX he hl hf hn hh
        have o1 : ∀ ls, leavesIn P.trees n.tree = some ls → (T n.tree).Ordered ls ∧ ls ≠ [] := by
          intro ls hls
          obtain ⟨t, ht, hc, rfl⟩ := leavesIn_tree hls
          have a1 := hP.treesOrdered t ht
          have a2 := hP.trees.nonempty t ht
          obtain ⟨tt, te, tf⟩ := n
          dsimp only at hc
          subst hc
          exact ⟨a1, a2⟩
        have o2 : ∀ ls, P.ghosts.bind (leavesIn · n.tree) = some ls → (T n.tree).Ordered ls ∧ ls ≠ [] := by
          intro ls hls
          obtain ⟨gs, g1, g2⟩ := Option.bind_eq_some_iff.1 hls
          obtain ⟨t, ht, hc, rfl⟩ := leavesIn_tree g2
          have a1 := (hP.ghosts gs g1).2 t ht
          have a2 := (hP.ghosts gs g1).1.nonempty t ht
          obtain ⟨tt, te, tf⟩ := n
          dsimp only at hc
          subst hc
          exact ⟨a1, a2⟩
        obtain ⟨b, b1, b2⟩ := T8.Leaf.C36_has_leaf_desc (hX.scheme n.tree) v1 (L := X.maxlevel) (by omega) hm (leavesIn P.trees n.tree)
          (P.ghosts.bind (leavesIn · n.tree)) o1 o2
        refine ⟨b, b1, b2.trans ?_⟩
        constructor
        · rintro ⟨ls, hls, x, hx, r⟩
          refine ⟨x, ?_, r⟩
          rcases hls with hls | hls
          · exact Or.inl ((leavesIn_mem hP.trees).1 ⟨ls, hls, hx⟩)
          · obtain ⟨gs, g1, g2⟩ := Option.bind_eq_some_iff.1 hls
            exact Or.inr ⟨gs, g1, (leavesIn_mem (hP.ghosts gs g1).1).1 ⟨ls, g2, hx⟩⟩
        · rintro ⟨x, hk, r⟩
          rcases hk with hk | ⟨gs, g1, hk⟩
          · obtain ⟨ls, l1, l2⟩ := (leavesIn_mem hP.trees).2 hk
            exact ⟨ls, Or.inl l1, x, l2, r⟩
          · obtain ⟨ls, l1, l2⟩ := (leavesIn_mem (hP.ghosts gs g1).1).2 hk
            exact ⟨ls, Or.inr (by rw [g1]; exact l1), x, l2, r⟩
      obtain ⟨b, hb, hq⟩ := anyM_spec key
      refine ⟨b, hb, hq.trans ?_⟩
      constructor
      · rintro ⟨h, hh, r⟩; exact ⟨n, rfl, h, hh, r⟩
      · rintro ⟨m, hm, h, hh, r⟩
        obtain rfl := Option.some.inj hm
        exact ⟨h, hh, r⟩

include hP in
theorem balanceAdapt_spec {existing : Int} (hex : existing ≤ X.maxlevel) {g : Nat} {e : (T g).E} (he : (T g).Valid e)
    (hl : existing ≤ 0 → (T g).level e < X.maxlevel) : ∃ b, balanceAdapt X P existing g e = some b ∧
      (b = true ↔ (existing ≤ 0 ∨ ((T g).level e : Int) ≤ existing - 2) ∧ Finer X P g e) := by
  rw [balanceAdapt]
  split
  · rename_i hc
    obtain ⟨b, hb, hq⟩ := anyM_spec (l := List.range ((X.faces g).numFaces e)) (f := faceTest X P g e)
      (Q := fun f => ∃ n, X.neighbor g e f = some n ∧
        ∃ h ∈ (X.faces n.tree).childrenAtFace n.elem n.face, ∃ x, Known P ⟨n.tree, x⟩ ∧ (T n.tree).Desc h x ∧ x ≠ h)
      (fun f hf => faceTest_spec hX hP he (by omega) (List.mem_range.1 hf))
    refine ⟨b, hb, hq.trans ?_⟩
    simp only [List.mem_range]
    exact ⟨fun h => ⟨hc, h⟩, fun h => h.2⟩
  · rename_i hc
    exact ⟨false, rfl, by simp [hc]⟩

end Test

/-! ### One adaptation -/

/-- What becomes of a leaf. -/
def split {T : RTree} (want : T.E → Bool) (e : T.E) : List T.E := if want e then (List.range (T.nc e)).map (T.child e) else [e]

theorem split_ne_nil {T : RTree} {want : T.E → Bool} {e : T.E} (he : T.Valid e) : split want e ≠ [] := by
  rw [split]
  split
  · have := T.nc_pos e he
    intro h
    have := congrArg List.length h
    simp at this
    omega
  · simp

theorem flatMap_split_ne_nil {T : RTree} {want : T.E → Bool} {leaves : List T.E} (ho : T.Ordered leaves) (hne : leaves ≠ []) :
    leaves.flatMap (split want) ≠ [] := by
  cases leaves with
  | nil => exact absurd rfl hne
  | cons x l =>
    rw [List.flatMap_cons]
    intro h
    exact split_ne_nil (ho.1 x (by simp)) (List.append_eq_nil_iff.1 h).1

/-- Adaptation with a callback that looks only at the first element and refines the wanted elements. -/
theorem adaptTree_split {T : RTree} {S : Scheme T} (hS : S.Lawful) {cfg : Cfg} (hrec : cfg.recursive = false) {cb : Callback (Option Bool) T.E}
    {lt : Nat} {leaves : List T.E} (ho : T.Ordered leaves) (hne : leaves ≠ [])
    {want : T.E → Bool} (hask : ∀ d i b e rest, e ∈ leaves → cb (some d) lt i b (e :: rest) = if want e then (1, some false) else (0, some d))
    (hcan : ∀ e ∈ leaves, want e = true → CanRefine cfg e) (mc : Nat) (rm0 d : Bool) :
    adaptTree S cfg cb lt mc leaves rm0 (some d) = some (leaves.flatMap (split want), rm0, some (d && leaves.all (fun e => !want e))) := by
  let I : Adapt.State (Option Bool) T.E → Prop := fun s => s.considered ≤ leaves.length ∧ s.telements = (leaves.take s.considered).flatMap (split want) ∧
    s.inserted = s.telements.length ∧ s.removed = rm0 ∧ s.st = some (d && (leaves.take s.considered).all (fun e => !want e))
  have key := whileO_spec (cond := fun s : Adapt.State (Option Bool) T.E => some (decide (s.considered < leaves.length)))
    (body := elementBody S cfg cb lt leaves) I (fun s => leaves.length - s.considered) ?_ ⟨0, 0, 0, mc, [], rm0, some d⟩
    (by simp [I])
  · obtain ⟨r, hr, ⟨h1, h2, h3, h4, h5⟩, hc⟩ := key
    have hcons : r.considered = leaves.length := by
      simp only [Option.some.injEq, decide_eq_false_iff_not] at hc
      omega
    rw [hcons, List.take_length] at h2 h5
    have hnil := flatMap_split_ne_nil (want := want) ho hne
    rw [adaptTree, if_pos (List.length_pos_iff.2 hne), hr]
    simp only [Option.bind_eq_bind, Option.bind_some, h3, List.take_length]
    rw [show assertO (r.telements.length ≠ 0) = some () from assertO_true (by rw [h2]; exact fun h => hnil (List.length_eq_zero_iff.1 h)), h2, h4, h5]
    rfl
  · rintro ⟨i, ins, co, nch, tel, rm, st⟩ ⟨h1, h2, h3, h4, h5⟩
    simp only at h1 h2 h3 h4 h5
    subst h2 h3 h4 h5
    by_cases hlt : i < leaves.length
    · right
      have he : leaves[i]? = some leaves[i] := List.getElem?_eq_getElem hlt
      have hem : leaves[i] ∈ leaves := List.getElem_mem hlt
      have ve := ho.1 _ hem
      obtain ⟨n, hn, hle⟩ := familySize_some (cfg := cfg) (lt := lt) hS ho he
      have hns := hS.numSiblings_pos _ ve
      have hnum : (if n = 0 then 1 else n) ≤ S.numSiblings leaves[i] := by split <;> omega
      obtain ⟨rest, hrest⟩ : ∃ rest, (leaves.drop i).take (if n = 0 then 1 else n) = leaves[i] :: rest := by
        obtain ⟨m, hm⟩ : ∃ m, (if n = 0 then 1 else n) = m + 1 := ⟨(if n = 0 then 1 else n) - 1, by split <;> omega⟩
        exact ⟨(leaves.drop (i + 1)).take m, by rw [hm, List.drop_eq_getElem_cons hlt, List.take_succ_cons]⟩
      have htake : leaves.take (i + 1) = leaves.take i ++ [leaves[i]] := List.take_succ_eq_append_getElem hlt
      refine ⟨by simp [hlt], ?_⟩
      simp only [elementBody, he, hn, Option.bind_eq_bind, Option.bind_some, hrest, hask _ _ _ _ _ hem,
        show assertO ((if n = 0 then 1 else n) ≤ S.numSiblings leaves[i]) = some () from assertO_true hnum]
      cases hw : want leaves[i] with
      | true =>
        have hc := hcan _ hem hw
        have href := (hS.isRefinable _ ve).2 hc.2
        have hno : ¬ ((1 : Int) > 0 ∧ (T.level leaves[i] ≥ cfg.maxlevel ∨ S.isRefinable leaves[i] = false)) := by
          rintro ⟨_, h | h⟩
          · have := hc.1; omega
          · rw [href] at h; cases h
        simp only [if_true, show assertO (n ≠ 0 ∨ (1 : Int) ≠ -1) = some () from assertO_true (by right; decide), Option.bind_some,
          if_neg hno, applyAnswer, hrec, Bool.false_eq_true, if_false]
        refine ⟨_, by rw [assertO_true trivial]; rfl, ⟨by show i + 1 ≤ _; omega, ?_, ?_, rfl, ?_⟩, by show leaves.length - (i + 1) < leaves.length - i; omega⟩
        · show _ = (leaves.take (i + 1)).flatMap (split want)
          rw [htake, List.flatMap_append]
          simp [split, hw, children]
        · simp [children]
        · show some false = some (d && (leaves.take (i + 1)).all _)
          rw [htake, List.all_append, List.all_cons, List.all_nil, hw]
          simp
      | false =>
        simp only [Bool.false_eq_true, if_false, show assertO (n ≠ 0 ∨ (0 : Int) ≠ -1) = some () from assertO_true (by right; decide), Option.bind_some,
          gt_iff_lt, lt_self_iff_false, false_and, applyAnswer, tryCoarsen, hrec]
        refine ⟨_, rfl, ⟨by show i + 1 ≤ _; omega, ?_, ?_, rfl, ?_⟩, by show leaves.length - (i + 1) < leaves.length - i; omega⟩
        · show _ = (leaves.take (i + 1)).flatMap (split want)
          rw [htake, List.flatMap_append]
          simp [split, hw]
        · simp
        · show _ = some (d && (leaves.take (i + 1)).all _)
          rw [htake, List.all_append, List.all_cons, List.all_nil, hw]
          simp
    · left
      simp [hlt]

theorem adaptTrees_split {S : ∀ g, Scheme (T g)} (hS : ∀ g, (S g).Lawful) {cfg : Cfg} (hrec : cfg.recursive = false)
    {cb : ∀ g, Callback (Option Bool) (T g).E} (hleg : ∀ g, Legal (cb g)) (mc : Nat → Nat) {want : ∀ g, (T g).E → Bool} :
    ∀ {trees : List (LocalTree T)}, (∀ t ∈ trees, (T t.cls).Ordered t.leaves ∧ t.leaves ≠ [] ∧ ∀ x ∈ t.leaves, (T t.cls).level x ≤ cfg.maxlevel) →
    (∀ t ∈ trees, ∀ d lt i b e rest, e ∈ t.leaves →
      cb t.cls (some d) lt i b (e :: rest) = if want t.cls e then (1, some false) else (0, some d)) →
    (∀ t ∈ trees, ∀ e ∈ t.leaves, want t.cls e = true → CanRefine cfg e) → ∀ (k : Nat) (rm0 d : Bool),
    adaptTrees S mc cfg cb trees k rm0 (some d) =
      some (trees.map (fun t => ⟨t.gtree, t.cls, t.leaves.flatMap (split (want t.cls))⟩), rm0,
        some (d && trees.all (fun t => t.leaves.all (fun e => !want t.cls e))))
  | [], _, _, _, k, rm0, d => by simp [adaptTrees]
  | t :: ts, h1, h2, h3, k, rm0, d => by
    obtain ⟨a1, a2, a3⟩ := h1 t (by simp)
    rw [adaptTrees, adaptTree_split (hS t.cls) hrec a1 a2 (fun d i b e rest => h2 t (by simp) d k i b e rest) (h3 t (by simp))]
    simp only [Option.bind_eq_bind, Option.bind_some]
    rw [adaptTrees_split hS hrec hleg mc (fun t ht => h1 t (by simp [ht])) (fun t ht => h2 t (by simp [ht])) (fun t ht => h3 t (by simp [ht]))]
    simp [Bool.and_assoc]

section Round
variable {X : Lib T} {In : ∀ g, (T g).E → Nat → (T g).E → Nat → Prop} {Ok : List (List (LocalTree T)) → Prop} (hX : X.Lawful In Ok)

/-- The answer of the callback. -/
def wants (X : Lib T) (P : Process T) (existing : Int) (g : Nat) (e : (T g).E) : Bool := balanceAdapt X P existing g e == some true

theorem callback_legal (P : Process T) (existing : Int) (g : Nat) : Legal (callback X P existing g) := by
  intro s lt i b els
  unfold callback
  split
  · split <;> simp
  · simp

include hX in
theorem adaptProcess_spec {P : Process T} (hP : ProcOk P) {existing : Int} (hex : existing ≤ X.maxlevel)
    (hlev : ∀ x ∈ procSeq P.trees, (x.level : Int) ≤ existing) (mpisize : Nat) (incomplete : Bool) (p : Nat) :
    adaptProcess X mpisize existing incomplete p P =
      some (P.trees.map (fun t => ⟨t.gtree, t.cls, t.leaves.flatMap (split (wants X P existing t.cls))⟩), incomplete,
        P.trees.all (fun t => t.leaves.all (fun e => !wants X P existing t.cls e))) := by
  have hpos := hX.pos
  have hlv : ∀ t ∈ P.trees, ∀ e ∈ t.leaves, ((T t.cls).level e : Int) ≤ existing := by
    intro t ht e he
    exact hlev ⟨t.cls, e⟩ (mem_procSeq.2 ⟨t, ht, rfl, he⟩)
  have hsome : ∀ t ∈ P.trees, ∀ e ∈ t.leaves, ∃ b, balanceAdapt X P existing t.cls e = some b ∧
      (b = true ↔ (existing ≤ 0 ∨ ((T t.cls).level e : Int) ≤ existing - 2) ∧ Finer X P t.cls e) := by
    intro t ht e he
    have := hlv t ht e he
    exact balanceAdapt_spec hX hP hex ((hP.treesOrdered t ht).1 e he) (by omega)
  rw [adaptProcess, adapt, adaptTrees_split hX.scheme rfl (callback_legal P existing) X.maxChildren (want := wants X P existing)]
  · simp
  · intro t ht
    refine ⟨hP.treesOrdered t ht, hP.trees.nonempty t ht, ?_⟩
    intro x hx
    have := hlv t ht x hx
    show (T t.cls).level x ≤ X.maxlevel
    omega
  · intro t ht d lt i b e rest he
    obtain ⟨b, hb, _⟩ := hsome t ht e he
    simp only [callback, wants, hb]
    cases b <;> simp
  · intro t ht e he hw
    obtain ⟨b, hb, hq⟩ := hsome t ht e he
    rw [wants, hb, beq_iff_eq] at hw
    have := (hq.1 (Option.some.inj hw)).1
    have h1 := hlv t ht e he
    have h2 := hX.maxlevel t.cls
    refine ⟨?_, ?_⟩
    · show (T t.cls).level e < X.maxlevel
      omega
    · omega

end Round
end T8.Balance
