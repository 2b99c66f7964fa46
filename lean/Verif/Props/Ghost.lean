/-
C55: the elements that a process sends to the others for their ghost layers.
-/
import Verif.Lemmas.GhostSearch
import Verif.Lemmas.Balance

namespace T8.Ghost
open T8.RTree T8.Spec T8.GhostSpec T8.Owner T8.Search T8.Populate T8.Balance
open T8.BalanceSpec (Neighbor Neighbors)

variable {T : Nat → RTree} {P K L : Nat} {X : Env T} {In : ∀ g, (T g).E → Nat → (T g).E → Nat → Prop} {D : DistForest T P K L} {p : Nat}

/-- The leaves of the trees with their indices. -/
def indexed (trees : List (LocalTree T)) : List (Sent T) := trees.flatMap (fun t => t.leaves.zipIdx.map (Sigma.mk t.cls))

/-- The leaves of a process are stored by trees, in the order of the trees. -/
structure Stores (D : DistForest T P K L) (p : Nat) (trees : List (LocalTree T)) : Prop where
  leaves : procSeq trees = D.localLeaves p
  nonempty : ∀ t ∈ trees, t.leaves ≠ []
  order : (trees.map (fun t => t.cls)).Pairwise (· < ·)

open Classical in
/-- The leaves that process `q` must be sent by process `p`. -/
noncomputable def mustSend (X : Env T) (In : ∀ g, (T g).E → Nat → (T g).E → Nat → Prop) (D : DistForest T P K L) (p : Nat)
    (trees : List (LocalTree T)) (q : Nat) : List (Sent T) :=
  (indexed trees).filter (fun x => decide (q ≠ p ∧ Touches X.neighbor In (fun g => (X.faces g).numFaces) D q ⟨x.1, x.2.1⟩))

/-! ### The search -/

open Classical in
theorem forest_spec (hs : Setting X In D p) : ∀ (trees : List (LocalTree T)), (∀ t ∈ trees, t.leaves ≠ [] ∧ (T t.cls).Ordered t.leaves) →
    (∀ t ∈ trees, t.cls < K) → (∀ t ∈ trees, ∀ x ∈ t.leaves, ⟨t.cls, x⟩ ∈ D.localLeaves p) →
    (trees.map (fun t => t.cls)).Pairwise (· < ·) → ∀ (itree : Nat) (h log : History T),
    ForestSearched (callback X) none none itree (trees.map treeOf) h log → ∀ (s : Data T) (base : Int → List (Sent T)),
    dataAfter X h = some s → (∀ t ∈ trees, s.gtreeid < t.cls) → (∀ t ∈ trees, ∀ q, ∀ y ∈ base q, y.1 < t.cls) → s.remotes.Good →
    (∀ q, s.remotes.sent q = base q) →
    ∃ s', dataAfter X (h ++ log) = some s' ∧ s'.remotes.Good ∧
      ∀ q, s'.remotes.sent q = base q ++ (indexed trees).filter (fun x => decide (Wanted X In D p x.1 x.2.1 q)) := by
  intro trees
  induction trees with
  | nil =>
    intro _ _ _ _ itree h log hf s base hdata _ _ hgood hsent
    cases hf
    exact ⟨s, by simpa using hdata, hgood, fun q => by rw [hsent q]; simp [indexed]⟩
  | cons t trees ih =>
    intro ht hK hloc hord itree h log hf s base hdata hid hbase hgood hsent
    obtain ⟨hne, ho⟩ := ht t (by simp)
    rw [List.map_cons, List.pairwise_cons] at hord
    rw [List.map_cons] at hf
    cases hf with
    | cons _ _ _ _ _ x y e0 tlog rest hx hy he0 hnca hsearched hans hrest =>
      have hall : ∀ z ∈ t.leaves, (T t.cls).Desc e0 z := by
        rw [List.head?_eq_getElem?] at hx
        rw [List.getLast?_eq_getElem?] at hy
        exact nca_all ho hx hy he0 hnca
      obtain ⟨s', k1, k2, k3, k4⟩ := tree_spec hs (hK t (by simp)) ho (hloc t (by simp)) he0 hsearched (hbase t (by simp)) hne hall hans hdata
        (hid t (by simp)) hgood hsent
      obtain ⟨s'', l1, l2, l3⟩ := ih (fun t' h' => ht t' (by simp [h'])) (fun t' h' => hK t' (by simp [h']))
        (fun t' h' => hloc t' (by simp [h'])) hord.2 _ _ _ hrest s' _ k1 (fun t' h' => by
          rw [k2]
          have := hord.1 t'.cls (List.mem_map.2 ⟨t', h', rfl⟩)
          omega) (fun t' h' q y hy => by
          rcases List.mem_append.1 hy with hy | hy
          · exact hbase t' (by simp [h']) q y hy
          · obtain ⟨z, _, rfl⟩ := List.mem_map.1 hy
            exact hord.1 t'.cls (List.mem_map.2 ⟨t', h', rfl⟩)) k3 k4
      refine ⟨s'', by rw [← List.append_assoc]; exact l1, l2, fun q => ?_⟩
      rw [l3 q, indexed, indexed, List.flatMap_cons, List.filter_append, List.filter_map, ← List.append_assoc]
      rfl

theorem inTree_leafSequence {K : Nat} {leaves : (g : Nat) → List (T g).E} {g : Nat} (hg : g < K) :
    BalanceSpec.inTree g (leafSequence K leaves) = leaves g := by
  have key : ∀ K, BalanceSpec.inTree g (leafSequence K leaves) = if g < K then leaves g else [] := by
    intro K
    induction K with
    | zero => rfl
    | succ K ih =>
      rw [leafSequence, List.range_succ, List.flatMap_append, BalanceSpec.inTree_append]
      change BalanceSpec.inTree g (leafSequence K leaves) ++ _ = _
      rw [ih, List.flatMap_cons, List.flatMap_nil, List.append_nil]
      rcases Nat.lt_trichotomy g K with h | rfl | h
      · rw [if_pos h, if_pos (by omega), BalanceSpec.inTree_map_other (by omega), List.append_nil]
      · rw [if_neg (by omega), if_pos (by omega), BalanceSpec.inTree_map_same, List.nil_append]
      · rw [if_neg (by omega), if_neg (by omega), BalanceSpec.inTree_map_other (by omega), List.append_nil]
  rw [key, if_pos hg]

theorem Stores.facts {trees : List (LocalTree T)} (h : Stores D p trees) (hp : p < P) :
    (∀ t ∈ trees, t.leaves ≠ [] ∧ (T t.cls).Ordered t.leaves) ∧ (∀ t ∈ trees, t.cls < K) ∧
    ∀ t ∈ trees, ∀ x ∈ t.leaves, (⟨t.cls, x⟩ : Σ g, (T g).E) ∈ D.localLeaves p := by
  have hloc : ∀ t ∈ trees, ∀ x ∈ t.leaves, (⟨t.cls, x⟩ : Σ g, (T g).E) ∈ D.localLeaves p := by
    intro t ht x hx
    rw [← h.leaves]
    exact List.mem_flatMap.2 ⟨t, ht, List.mem_map.2 ⟨x, hx, rfl⟩⟩
  have hK : ∀ t ∈ trees, t.cls < K := by
    intro t ht
    obtain ⟨x, hx⟩ := List.exists_mem_of_ne_nil _ (h.nonempty t ht)
    exact (leaf_facts hp (hloc t ht x hx)).1
  refine ⟨fun t ht => ⟨h.nonempty t ht, ?_⟩, hK, hloc⟩
  have h1 := sublist_inTree ht
  rw [h.leaves] at h1
  have h2 : (BalanceSpec.inTree t.cls (D.localLeaves p)).Sublist (BalanceSpec.inTree t.cls (leafSequence K D.leaves)) :=
    List.Sublist.filterMap _ ((List.take_sublist _ _).trans (List.drop_sublist _ _))
  rw [inTree_leafSequence (hK t ht)] at h2
  exact (D.ordered t.cls (hK t ht)).sublist (h1.trans h2)

theorem wanted_iff (hs : Setting X In D p) {g : Nat} (hg : g < K) {e : (T g).E} (he : (T g).Valid e) (hl : (T g).level e ≤ L) (q : Nat) :
    Wanted X In D p g e q ↔ q ≠ p ∧ Touches X.neighbor In (fun g => (X.faces g).numFaces) D q ⟨g, e⟩ := by
  rw [touches_iff hs.lawful hg he hl, Wanted]
  constructor
  · rintro ⟨h1, f, n, hf, hn, q', hq', heq⟩
    obtain rfl : q = q' := by omega
    exact ⟨by omega, f, n, hf, hn, hq'⟩
  · rintro ⟨h1, f, n, hf, hn, hq⟩
    exact ⟨by omega, f, n, hf, hn, q, hq, rfl⟩

theorem indexed_facts {trees : List (LocalTree T)} (hst : Stores D p trees) {x : Sent T} (hx : x ∈ indexed trees) :
    (⟨x.1, x.2.1⟩ : Σ g, (T g).E) ∈ D.localLeaves p := by
  obtain ⟨t, ht, hx⟩ := List.mem_flatMap.1 hx
  obtain ⟨y, hy, rfl⟩ := List.mem_map.1 hx
  rw [← hst.leaves]
  refine List.mem_flatMap.2 ⟨t, ht, List.mem_map.2 ⟨y.1, ?_, rfl⟩⟩
  exact List.fst_mem_of_mem_zipIdx hy

theorem mem_processes {G : Remotes T} (h : G.Good) {q : Int} : q ∈ G.ghosts.map (fun r => r.rank) ↔ G.sent q ≠ [] := by
  constructor
  · intro hq
    obtain ⟨r, hr, rfl⟩ := List.mem_map.1 hq
    rw [Remotes.sent_of_mem h hr]
    have hr' := h.remotes r hr
    obtain ⟨t, ht⟩ := List.exists_mem_of_ne_nil _ hr'.nonempty
    obtain ⟨y, hy⟩ := List.exists_mem_of_ne_nil _ (hr'.trees t ht)
    intro hnil
    have : (⟨t.gtreeid, y⟩ : Sent T) ∈ r.seq := List.mem_flatMap.2 ⟨t, ht, List.mem_map.2 ⟨y, hy, rfl⟩⟩
    rw [hnil] at this
    cases this
  · intro hne
    rw [Remotes.sent] at hne
    cases hfind : G.ghosts.find? (fun r => decide (r.rank = q)) with
    | none => rw [hfind] at hne; exact absurd rfl hne
    | some r => exact List.mem_map.2 ⟨r, List.mem_of_find?_eq_some hfind, by simpa using List.find?_some hfind⟩

/-- **C55**: in a forest whose trees are covered by leaves, every process collects for each other process exactly its leaves that share a
face with a leaf of that process, each of them once, in order and with its index. -/
theorem C55_fill_remote_partial (hs : Setting X In D p) {trees : List (LocalTree T)} (hst : Stores D p trees) :
    ∃ G, fillRemoteV3 X trees = some G ∧ G.Good ∧ (∀ q : Nat, G.sent q = mustSend X In D p trees q) ∧ ∀ q ∈ G.processes, 0 ≤ q ∧ q < P := by
  classical
  obtain ⟨ht, hK, hloc⟩ := hst.facts hs.process
  obtain ⟨log, h1, h2⟩ := C33_search (S := X.scheme) hs.lawful.scheme (callback X) (trees := trees) ht
  obtain ⟨s, k1, k2, k3⟩ := forest_spec hs trees ht hK hloc hst.order 0 [] log h2 ⟨-1, 0, 0, [], ⟨[], []⟩⟩ (fun _ => []) rfl
    (fun t _ => by show (-1 : Int) < _; omega) (by simp) ⟨by simp, rfl, by simp⟩ (fun q => rfl)
  rw [List.nil_append] at k1
  refine ⟨s.remotes, ?_, k2, fun q => ?_, ?_⟩
  · rw [fillRemoteV3, h1]
    simp only [Option.bind_eq_bind, Option.bind_some, k1, Option.pure_def]
  · rw [k3 q, List.nil_append, mustSend]
    refine List.filter_congr fun x hx => ?_
    obtain ⟨f1, f2, f3⟩ := leaf_facts hs.process (indexed_facts hst hx)
    exact decide_eq_decide.2 (wanted_iff hs f1 f2 f3 q)
  · intro q hq
    rw [k2.processes, mem_processes k2, k3, List.nil_append] at hq
    obtain ⟨x, hx⟩ := List.exists_mem_of_ne_nil _ hq
    obtain ⟨_, f, n, _, _, q', ⟨_, _, _, _, _, hq'⟩, heq⟩ := of_decide_eq_true (List.mem_filter.1 hx).2
    rw [heq]
    have := hq'.1
    omega

/-! ### Symmetry -/

/-- Sharing a face is symmetric for leaves that do not overlap. -/
theorem shares_symm (hX : X.Lawful In K L) {x y : BalanceSpec.Leaf T} (hgx : x.1 < K) (hgy : y.1 < K) (hx : (T x.1).Valid x.2)
    (hy : (T y.1).Valid y.2) (hxl : (T x.1).level x.2 ≤ L) (hyl : (T y.1).level y.2 ≤ L) (hno : ∀ h : x.1 = y.1, ¬ (T y.1).Desc y.2 (h ▸ x.2))
    (h : SharesFace X.neighbor In (fun g => (X.faces g).numFaces) x y) :
    SharesFace X.neighbor In (fun g => (X.faces g).numFaces) y x := by
  obtain ⟨g, x⟩ := x
  obtain ⟨h', y⟩ := y
  obtain ⟨f, ⟨h, n, j⟩, hf, hn, ht, hyn⟩ := h
  obtain rfl : h = h' := ht
  replace hn : X.neighbor g x f = some ⟨h, n, j⟩ := hn
  replace hf : f < (X.faces g).numFaces x := hf
  replace hgx : g < K := hgx
  replace hxl : (T g).level x ≤ L := hxl
  replace hyl : (T h).level y ≤ L := hyl
  replace hgy : h < K := hgy
  replace hno : ∀ hgh : g = h, ¬ (T h).Desc y (hgh ▸ x) := hno
  obtain ⟨v1, v2, v3, v4⟩ := hX.neighbors.valid g x f _ hgx hx hxl hf hn
  have hback := hX.neighbors.back g x f h n j hgx hx hxl hf hn
  replace hyn : (T h).Desc y n ∨ ((T h).Desc n y ∧ ∃ k, In h y k n j) := hyn
  replace v2 : (T h).Valid n := v2
  replace v3 : (T h).level n = (T g).level x := v3
  replace hx : (T g).Valid x := hx
  replace hy : (T h).Valid y := hy
  rcases hyn with hyn | ⟨hny, k, hk⟩
  · -- the ancestor of `x` of the level of `y`
    have hly := hyn.level_le hy
    have hda := desc_anc hx (l := (T h).level y)
    have hva := valid_anc hx (l := (T h).level y)
    have hla : (T g).level ((T g).anc x ((T h).level y)) = (T h).level y := level_anc hx (by omega)
    rcases hX.up hgx hva hx hxl hda hf hn with ⟨hgh, hd⟩ | ⟨f', m, k, a1, a2, a3, a4, a5⟩
    · subst hgh
      replace hd : (T g).Desc ((T g).anc x ((T g).level y)) n := hd
      have := desc_comparable hy hva hyn hd (by omega)
      have := this.eq_of_level hy (by omega)
      refine absurd ?_ (hno rfl)
      show (T g).Desc y x
      rw [← this]
      exact hda
    · obtain ⟨w1, w2, w3, w4⟩ := hX.neighbors.valid g _ f' _ hgx hva (by omega) a1 a2
      replace w2 : (T h).Valid m := w2
      replace w3 : (T h).level m = (T g).level _ := w3
      have := (desc_comparable hy w2 hyn a3 (by omega)).eq_of_level hy (by omega)
      subst this
      exact ⟨k, _, w4, hX.neighbors.back g _ f' h m k hgx hva (by omega) a1 a2, rfl, Or.inr ⟨hda, f, a5⟩⟩
  · have hk' := ((hX.faces h).bounds _ _ _ _ hk).1
    obtain ⟨n', j', b1, b2, b3⟩ := hX.down hgy v2 hy hyl hny hk hback
    exact ⟨k, _, hk', b1, rfl, Or.inl b2⟩

theorem no_overlap {q : Nat} (hp : p < P) (hq : q < P) (hpq : p ≠ q) {g : Nat} {x y : (T g).E} (hx : ⟨g, x⟩ ∈ D.localLeaves p)
    (hy : ⟨g, y⟩ ∈ D.localLeaves q) : ¬ (T g).Desc y x := by
  intro hd
  obtain ⟨f1, f2, f3⟩ := leaf_facts hp hx
  have hL := D.maxLevel g f1
  replace f2 : (T g).Valid x := f2
  replace f3 : (T g).level x ≤ L := f3
  obtain ⟨a1, a2, _⟩ := firstDesc_spec f2 (n := L - (T g).level x) (by omega)
  exact hpq (C27_unique f1 f2 f3 ⟨hp, x, hx, a1⟩ ⟨hq, y, hy, hd.trans a1⟩)

/-- **C55**: if a process sends elements to another one then it also receives elements from that process, and a leaf is sent to exactly those
processes that have a leaf with this leaf as neighbor. -/
theorem C55_symmetric (hX : X.Lawful In K L) {q : Nat} (hp : p < P) (hq : q < P) (hpq : p ≠ q) {x y : BalanceSpec.Leaf T}
    (hx : x ∈ D.localLeaves p) (hy : y ∈ D.localLeaves q) :
    SharesFace X.neighbor In (fun g => (X.faces g).numFaces) x y ↔ SharesFace X.neighbor In (fun g => (X.faces g).numFaces) y x := by
  obtain ⟨f1, f2, f3⟩ := leaf_facts hp hx
  obtain ⟨g1, g2, g3⟩ := leaf_facts hq hy
  obtain ⟨g, x⟩ := x
  obtain ⟨h, y⟩ := y
  constructor
  · refine shares_symm hX f1 g1 f2 g2 f3 g3 ?_
    intro hgh
    obtain rfl : g = h := hgh
    exact no_overlap hp hq hpq hx hy
  · refine shares_symm hX g1 f1 g2 f2 g3 f3 ?_
    intro hgh
    obtain rfl : h = g := hgh
    exact no_overlap hq hp (Ne.symm hpq) hy hx

/-- **C55**: the other processes in the ghost structure of a process are those which have this process in theirs. -/
theorem C55_processes_partial {Y : Nat → Env T} {trees : Nat → List (LocalTree T)} (hs : ∀ p, p < P → Setting (Y p) In D p)
    (hsame : ∀ p, p < P → (Y p).neighbor = X.neighbor ∧ (Y p).faces = X.faces) (hst : ∀ p, p < P → Stores D p (trees p))
    {G : Nat → Remotes T} (hG : ∀ p, p < P → fillRemoteV3 (Y p) (trees p) = some (G p)) {p q : Nat} (hp : p < P) (hq : q < P) :
    (q : Int) ∈ (G p).processes ↔ (p : Int) ∈ (G q).processes := by
  have key : ∀ p, p < P → ∀ q : Nat, q < P → ((q : Int) ∈ (G p).processes ↔ q ≠ p ∧ ∃ x ∈ D.localLeaves p, ∃ y ∈ D.localLeaves q,
      SharesFace X.neighbor In (fun g => (X.faces g).numFaces) x y) := by
    classical
    intro p hp q hq
    obtain ⟨G', h1, h2, h3, _⟩ := C55_fill_remote_partial (hs p hp) (hst p hp)
    rw [hG p hp] at h1
    obtain rfl := Option.some.inj h1
    have h3 := h3 q
    rw [mustSend, (hsame p hp).1, (hsame p hp).2] at h3
    rw [h2.processes, mem_processes h2, h3]
    constructor
    · intro hne
      obtain ⟨x, hx⟩ := List.exists_mem_of_ne_nil _ hne
      obtain ⟨hx1, hx2⟩ := List.mem_filter.1 hx
      obtain ⟨w1, w2, y, w3, w4⟩ := of_decide_eq_true hx2
      exact ⟨w1, _, indexed_facts (hst p hp) hx1, y, w3, w4⟩
    · rintro ⟨w1, x, hx, y, hy, hxy⟩ hnil
      rw [← (hst p hp).leaves] at hx
      obtain ⟨t, ht, hx⟩ := List.mem_flatMap.1 hx
      obtain ⟨e, he, rfl⟩ := List.mem_map.1 hx
      obtain ⟨i, hi⟩ := List.getElem?_of_mem he
      have hm : (⟨t.cls, (e, i)⟩ : Sent T) ∈ indexed (trees p) :=
        List.mem_flatMap.2 ⟨t, ht, List.mem_map.2 ⟨(e, i), List.mem_zipIdx_iff_getElem?.2 hi, rfl⟩⟩
      rw [List.filter_eq_nil_iff] at hnil
      exact hnil _ hm (decide_eq_true ⟨w1, hq, y, hy, hxy⟩)
  rw [key p hp q hq, key q hq p hp]
  have hsym : ∀ x ∈ D.localLeaves p, ∀ y ∈ D.localLeaves q, q ≠ p → (SharesFace X.neighbor In (fun g => (X.faces g).numFaces) x y ↔
      SharesFace X.neighbor In (fun g => (X.faces g).numFaces) y x) := by
    intro x hx y hy hqp
    have := C55_symmetric (D := D) (hs p hp).lawful hp hq (Ne.symm hqp) hx hy
    rwa [(hsame p hp).1, (hsame p hp).2] at this
  constructor
  · rintro ⟨h1, x, hx, y, hy, hxy⟩
    exact ⟨Ne.symm h1, y, hy, x, hx, (hsym x hx y hy h1).1 hxy⟩
  · rintro ⟨h1, y, hy, x, hx, hxy⟩
    exact ⟨Ne.symm h1, x, hx, y, hy, (hsym x hx y hy (Ne.symm h1)).2 hxy⟩

/-! ### The other versions -/

theorem foldlM_const {α β : Type} {f : β → α → Option β} {b : β} {l : List α} (h : ∀ a ∈ l, f b a = some b) : l.foldlM f b = some b := by
  induction l with
  | nil => rfl
  | cons a l ih =>
    rw [List.foldlM_cons, h a (by simp)]
    exact ih (fun x hx => h x (by simp [hx]))

/-- Finding: with version 2 of the algorithm no element is collected, in any forest. -/
theorem C55_version2_empty {m : Nat} (hm : m ≠ 0) (trees : List (LocalTree T)) : fillRemote X m trees = some ⟨[], []⟩ := by
  unfold fillRemote
  refine foldlM_const fun t _ => foldlM_const fun x _ => foldlM_const fun f _ => ?_
  rw [fillFace]
  simp only [if_neg hm]

/-- Finding: with version 1 no element is collected if no leaf has the maximal level. -/
theorem C55_version1_empty {trees : List (LocalTree T)} (h : ∀ t ∈ trees, ∀ x ∈ t.leaves, (T t.cls).level x ≠ (T t.cls).maxLevel) :
    fillRemote X 0 trees = some ⟨[], []⟩ := by
  unfold fillRemote
  refine foldlM_const fun t ht => foldlM_const fun x hx => foldlM_const fun f _ => ?_
  rw [fillFace]
  simp [h t ht x.1 (List.fst_mem_of_mem_zipIdx hx)]

/-- Finding: with version 1 an array that is not initialised is used at the first leaf that has the maximal level. -/
theorem C55_version1_undefined {t : LocalTree T} {trees : List (LocalTree T)} {x : (T t.cls).E} {ls : List (T t.cls).E}
    (ht : t.leaves = x :: ls) (hx : (T t.cls).level x = (T t.cls).maxLevel) (hf : 0 < (X.faces t.cls).numFaces x) :
    fillRemote X 0 (t :: trees) = none := by
  unfold fillRemote
  obtain ⟨n, hn⟩ := Nat.exists_eq_succ_of_ne_zero hf.ne'
  rw [List.foldlM_cons, ht, List.zipIdx_cons, List.foldlM_cons]
  simp only [hn, List.range_succ_eq_map, List.foldlM_cons]
  simp [fillFace, hx]

end T8.Ghost
