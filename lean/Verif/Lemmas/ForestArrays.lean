/-
Lemmas on the creation of the arrays about the distribution of a forest (`Model/ForestArrays.lean`).
-/
import Verif.Model.ForestArrays
import Verif.Lemmas.Owner

namespace T8.ForestArrays
open T8.Spec RTree T8.Owner T8.Partition

variable {T : Nat → RTree} {P K L : Nat} (D : DistForest T P K L)

/-- The tree of the leaf before position `n`; `-1` if there is none. -/
def bd (n : Nat) : Int := if n = 0 then -1 else (((leafSequence K D.leaves)[n - 1]?).map (fun y => (y.1 : Int))).getD K

variable {D}

theorem bd_succ {n : Nat} {y : Σ g, (T g).E} (h : (leafSequence K D.leaves)[n]? = some y) : bd D (n + 1) = y.1 := by
  simp [bd, h]

theorem exists_leaf {g : Nat} (hg : g < K) : ∃ (j : Nat) (y : Σ g, (T g).E), (leafSequence K D.leaves)[j]? = some y ∧ y.1 = g := by
  obtain ⟨x, hx⟩ := List.exists_mem_of_ne_nil _ (D.nonempty g hg)
  obtain ⟨j, hj⟩ := List.mem_iff_getElem?.1 ((mem_seq (D := D) (y := ⟨g, x⟩)).2 ⟨hg, hx⟩)
  exact ⟨j, _, hj, rfl⟩

theorem tree_mono {i j : Nat} {a b : Σ g, (T g).E} (hi : (leafSequence K D.leaves)[i]? = some a)
    (hj : (leafSequence K D.leaves)[j]? = some b) (hij : i ≤ j) : a.1 ≤ b.1 := by
  rcases eq_or_lt_of_le hij with rfl | h
  · rw [hi, Option.some.injEq] at hj
    rw [hj]
  · rcases seq_rel hi hj h with h' | h' <;> omega

theorem bd_step {n : Nat} (hn : n < (leafSequence K D.leaves).length) : bd D n ≤ bd D (n + 1) ∧ bd D (n + 1) ≤ bd D n + 1 := by
  obtain ⟨y, hy⟩ : ∃ y, (leafSequence K D.leaves)[n]? = some y := ⟨_, List.getElem?_eq_getElem hn⟩
  rw [bd_succ hy]
  have hyK := (leaf_props hy).1
  cases n with
  | zero =>
    simp only [bd, if_true]
    obtain ⟨j, z, hz, hz0⟩ := exists_leaf (D := D) (g := 0) (by omega)
    have := tree_mono hy hz (by omega)
    omega
  | succ n =>
    obtain ⟨x, hx⟩ : ∃ x, (leafSequence K D.leaves)[n]? = some x := ⟨_, List.getElem?_eq_getElem (by omega)⟩
    rw [bd_succ hx]
    have h1 := tree_mono hx hy (by omega)
    refine ⟨by omega, ?_⟩
    by_contra hc
    obtain ⟨j, z, hz, hz0⟩ := exists_leaf (D := D) (g := x.1 + 1) (by omega)
    rcases le_or_gt j n with h | h
    · have := tree_mono hz hx h; omega
    · have := tree_mono hy hz h; omega

theorem bd_top : bd D (leafSequence K D.leaves).length = K - 1 := by
  generalize hN : (leafSequence K D.leaves).length = N
  cases N with
  | zero =>
    have : K = 0 := by
      by_contra h
      obtain ⟨j, z, hz, _⟩ := exists_leaf (D := D) (g := 0) (by omega)
      have := (List.getElem?_eq_some_iff.1 hz).1
      omega
    subst this
    simp [bd]
  | succ n =>
    obtain ⟨x, hx⟩ : ∃ x, (leafSequence K D.leaves)[n]? = some x := ⟨_, List.getElem?_eq_getElem (by omega)⟩
    rw [bd_succ hx]
    have hK := (leaf_props hx).1
    obtain ⟨j, z, hz, hz0⟩ := exists_leaf (D := D) (g := K - 1) (by omega)
    have h1 := (List.getElem?_eq_some_iff.1 hz).1
    have := tree_mono hz hx (by omega)
    omega

theorem bd_mono {m n : Nat} (h : m ≤ n) (hn : n ≤ (leafSequence K D.leaves).length) : bd D m ≤ bd D n := by
  induction n with
  | zero => simp_all
  | succ n ih =>
    rcases eq_or_lt_of_le h with rfl | h
    · exact le_rfl
    · exact (ih (by omega) (by omega)).trans (bd_step (by omega)).1

theorem bd_ge (n : Nat) : -1 ≤ bd D n := by
  unfold bd
  split_ifs
  · exact le_rfl
  · cases (leafSequence K D.leaves)[n - 1]? <;> simp <;> omega

/-- A function that grows by at most one takes all values in between. -/
theorem between {f : Nat → Int} {g : Int} : ∀ {b a : Nat}, a ≤ b → (∀ n, a ≤ n → n < b → f (n + 1) ≤ f n + 1) → f a ≤ g → g ≤ f b →
    ∃ n, a ≤ n ∧ n ≤ b ∧ f n = g := by
  intro b
  induction b with
  | zero =>
    intro a ha _ h1 h2
    obtain rfl : a = 0 := by omega
    exact ⟨0, le_rfl, le_rfl, by omega⟩
  | succ b ih =>
    intro a ha hs h1 h2
    rcases eq_or_lt_of_le ha with rfl | ha
    · exact ⟨_, le_rfl, le_rfl, by omega⟩
    · rcases eq_or_lt_of_le h2 with h2 | h2
      · exact ⟨b + 1, by omega, le_rfl, h2.symm⟩
      · obtain ⟨n, n1, n2, n3⟩ := ih (a := a) (by omega) (fun n h h' => hs n h (by omega)) h1 (by have := hs b (by omega) (by omega); omega)
        exact ⟨n, n1, by omega, n3⟩

theorem part_succ {p : Nat} (hp : p < P) : D.part.off p ≤ D.part.off (p + 1) ∧ D.part.off (p + 1) ≤ (leafSequence K D.leaves).length :=
  ⟨D.part.mono p hp, D.part.off_le (by omega)⟩

variable (D)

/-- The trees of the processes of the forest `D`. -/
def trees : TreePartition (P : Int) (K : Int) where
  first p := if D.part.off p.toNat < D.part.off (p.toNat + 1) then bd D (D.part.off p.toNat + 1) else bd D (D.part.off p.toNat) + 1
  last p := bd D (D.part.off (p.toNat + 1))
  pos := by have := D.part.pos; omega
  first_zero := by
    have hp := D.part.pos
    obtain ⟨h1, h2⟩ := part_succ (D := D) hp
    simp only [Int.toNat_zero, D.part.zero] at h1 h2 ⊢
    split_ifs with h
    · have := bd_step (D := D) (n := 0) (by omega)
      obtain ⟨y, hy⟩ : ∃ y, (leafSequence K D.leaves)[0]? = some y := ⟨_, List.getElem?_eq_getElem (by omega)⟩
      have h3 := bd_succ hy
      simp only [bd, if_true] at this h3 ⊢
      simp only [Nat.zero_add] at this h3 ⊢
      omega
    · simp [bd]
  last_top := by
    have hp := D.part.pos
    rw [show ((P : Int) - 1).toNat + 1 = P by omega, D.part.top, bd_top]
  nonneg := by
    intro p h0 h1
    have := bd_ge (D := D) (D.part.off p.toNat)
    split_ifs with h
    · obtain ⟨h2, h3⟩ := part_succ (D := D) (p := p.toNat) (by omega)
      obtain ⟨y, hy⟩ : ∃ y, (leafSequence K D.leaves)[D.part.off p.toNat]? = some y := ⟨_, List.getElem?_eq_getElem (by omega)⟩
      rw [bd_succ hy]
      omega
    · omega
  len := by
    intro p h0 h1
    obtain ⟨h2, h3⟩ := part_succ (D := D) (p := p.toNat) (by omega)
    split_ifs with h
    · have := bd_mono (D := D) (m := D.part.off p.toNat + 1) (n := D.part.off (p.toNat + 1)) (by omega) h3
      omega
    · have : D.part.off p.toNat = D.part.off (p.toNat + 1) := by omega
      rw [this]
  next := by
    intro p h0 h1
    obtain ⟨h2, h3⟩ := part_succ (D := D) (p := p.toNat + 1) (by omega)
    rw [show (p + 1).toNat = p.toNat + 1 by omega]
    split_ifs with h
    · have h4 := bd_step (D := D) (n := D.part.off (p.toNat + 1)) (by omega)
      have h5 := bd_mono (D := D) (m := D.part.off (p.toNat + 1) + 1) (n := D.part.off (p.toNat + 1 + 1)) (by omega) h3
      omega
    · exact Or.inl rfl

variable {D}

theorem trees_empty {p : Nat} (h : ¬ D.part.Nonempty p) : (trees D).first p = bd D (D.part.off p) + 1 := by
  simp only [trees, Int.toNat_natCast]
  exact if_neg h

theorem trees_first {p : Nat} {y : Σ g, (T g).E} (h : D.part.Nonempty p) (hy : (leafSequence K D.leaves)[D.part.off p]? = some y) :
    (trees D).first p = y.1 := by
  simp only [trees, Int.toNat_natCast]
  rw [if_pos (show D.part.off p < D.part.off (p + 1) from h), bd_succ hy]

theorem trees_last (p : Nat) : (trees D).last p = bd D (D.part.off (p + 1)) := by simp [trees]

theorem trees_nonempty {p : Nat} (hp : p < P) : (trees D).first p ≤ (trees D).last p ↔ D.part.Nonempty p := by
  obtain ⟨h2, h3⟩ := part_succ (D := D) hp
  by_cases h : D.part.Nonempty p
  · simp only [h, iff_true]
    simp only [trees, Int.toNat_natCast]
    have h' : D.part.off p < D.part.off (p + 1) := h
    rw [if_pos h']
    exact bd_mono (by omega) h3
  · rw [trees_empty h, trees_last]
    simp only [h, iff_false, not_le]
    have : D.part.off (p + 1) = D.part.off p := le_antisymm (not_lt.1 h) h2
    rw [this]
    omega

/-- The trees of a process are those that have a leaf on the process. -/
theorem trees_owns (p g : Nat) : (trees D).Owns p g ↔ p < P ∧ ∃ x, ⟨g, x⟩ ∈ D.localLeaves p := by
  constructor
  · rintro ⟨_, h1, h2, h3⟩
    have hp : p < P := by omega
    obtain ⟨k2, k3⟩ := part_succ (D := D) hp
    have hn : D.part.off p < D.part.off (p + 1) := (trees_nonempty hp).1 (by omega)
    refine ⟨hp, ?_⟩
    have hb := between (f := bd D) (g := g) (a := D.part.off p + 1) (b := D.part.off (p + 1)) (by omega)
      (fun n _ h' => (bd_step (by omega)).2) (by simpa [trees, hn] using h2) (by simpa [trees] using h3)
    obtain ⟨n, n1, n2, n3⟩ := hb
    obtain ⟨y, hy⟩ : ∃ y, (leafSequence K D.leaves)[n - 1]? = some y := ⟨_, List.getElem?_eq_getElem (by omega)⟩
    have := bd_succ hy
    rw [show n - 1 + 1 = n by omega, n3] at this
    obtain ⟨g', x⟩ := y
    obtain rfl : g = g' := by simpa using this
    exact ⟨x, (mem_local hp).2 ⟨n - 1, by omega, by omega, hy⟩⟩
  · rintro ⟨hp, x, hx⟩
    obtain ⟨k2, k3⟩ := part_succ (D := D) hp
    obtain ⟨j, j1, j2, j3⟩ := (mem_local hp).1 hx
    have h := bd_succ j3
    have h1 := bd_mono (D := D) (m := D.part.off p + 1) (n := j + 1) (by omega) (by omega)
    have h2 := bd_mono (D := D) (m := j + 1) (n := D.part.off (p + 1)) (by omega) k3
    refine ⟨by omega, by omega, ?_, ?_⟩
    · simp only [trees, Int.toNat_natCast]
      rw [if_pos (by omega)]
      simp only at h
      omega
    · rw [trees_last]
      simp only at h
      omega

/-! ### The local forests -/

section
variable {p : Nat} {f : LocalForest T}

theorem part_num (hp : p < P) (hf : D.IsPart p f) : f.localNum = (D.part.off (p + 1) : Int) - D.part.off p := by
  obtain ⟨h2, h3⟩ := part_succ (D := D) hp
  rw [hf.num, DistForest.localLeaves, slice_length]
  omega

theorem part_le_zero (hp : p < P) (hf : D.IsPart p f) : f.localNum ≤ 0 ↔ ¬ D.part.Nonempty p := by
  rw [part_num hp hf, ElementPartition.Nonempty]
  omega

theorem part_trees_nil (hp : p < P) (hf : D.IsPart p f) (h : ¬ D.part.Nonempty p) : f.trees = [] := by
  have h0 : f.leaves = [] := by
    rw [hf.leaves, DistForest.localLeaves]
    exact slice_empty _ (Or.inl (not_lt.1 h))
  cases ht : f.trees with
  | nil => rfl
  | cons t ts =>
    have h1 := hf.nonempty t (by simp [ht])
    rw [LocalForest.leaves, ht] at h0
    simp at h0
    exact absurd h0.1 h1

/-- The first tree of a process and its first leaf. -/
theorem part_head (hp : p < P) (hf : D.IsPart p f) (h : D.part.Nonempty p) : ∃ t y, f.trees.head? = some t ∧ t.2.head? = some y ∧
    (leafSequence K D.leaves)[D.part.off p]? = some ⟨t.1, y⟩ ∧ f.firstLocalTree = t.1 ∧ f.firstLocalTree ≤ f.lastLocalTree := by
  obtain ⟨z, hz, hz'⟩ := local_head hp h
  rw [← hf.leaves, LocalForest.leaves] at hz
  cases ht : f.trees with
  | nil => simp [ht] at hz
  | cons t ts =>
    obtain ⟨g, l⟩ := t
    have h1 := hf.nonempty ⟨g, l⟩ (by simp [ht])
    have h2 := hf.index 0 ⟨g, l⟩ (by simp [ht])
    have h3 := hf.last
    rw [ht] at h3
    cases l with
    | nil => simp at h1
    | cons y ys =>
      rw [ht] at hz
      simp at hz
      subst hz
      refine ⟨_, y, rfl, rfl, hz', by simp at h2; simp; omega, ?_⟩
      simp at h3
      omega

/-- The last tree of a process and its last leaf. -/
theorem part_last (hp : p < P) (hf : D.IsPart p f) (h : D.part.Nonempty p) : ∃ t y, f.trees.getLast? = some t ∧ t.2.getLast? = some y ∧
    (leafSequence K D.leaves)[D.part.off (p + 1) - 1]? = some ⟨t.1, y⟩ ∧ f.lastLocalTree = t.1 := by
  obtain ⟨k2, k3⟩ := part_succ (D := D) hp
  have h' : D.part.off p < D.part.off (p + 1) := h
  have hz : f.leaves.getLast? = (leafSequence K D.leaves)[D.part.off (p + 1) - 1]? := by
    rw [hf.leaves, DistForest.localLeaves, List.getLast?_eq_getElem?, slice_length, slice_getElem? _ _ _ _ (by omega)]
    congr 1
    omega
  obtain ⟨z, hz'⟩ : ∃ z, (leafSequence K D.leaves)[D.part.off (p + 1) - 1]? = some z := ⟨_, List.getElem?_eq_getElem (by omega)⟩
  rw [hz'] at hz
  rcases List.eq_nil_or_concat f.trees with ht | ⟨ts, t, ht⟩
  · simp [LocalForest.leaves, ht] at hz
  · obtain ⟨g, l⟩ := t
    have h1 := hf.nonempty ⟨g, l⟩ (by simp [ht])
    have h2 := hf.index ts.length ⟨g, l⟩ (by simp [ht])
    have h3 := hf.last
    rw [LocalForest.leaves, ht] at hz
    rw [ht] at h3
    rcases List.eq_nil_or_concat l with hl | ⟨ys, y, hl⟩
    · simp [hl] at h1
    · subst hl
      simp at hz
      subst hz
      refine ⟨⟨g, ys.concat y⟩, y, by simp [ht], by simp, hz', ?_⟩
      simp at h2 h3 ⊢
      omega

end

/-! ### Shared trees -/

/-- In a complete forest a tree has a leaf at its beginning and one at its end. -/
theorem complete_ends (hc : D.Complete) {g : Nat} (hg : g < K) :
    (∃ (j : Nat) (z : (T g).E), (leafSequence K D.leaves)[j]? = some ⟨g, z⟩ ∧ lid z L = 0) ∧
    ∃ (j : Nat) (z : (T g).E), (leafSequence K D.leaves)[j]? = some ⟨g, z⟩ ∧ lid z L + (T g).count z L = (T g).count (T g).root L := by
  have hm := D.maxLevel g hg
  have hr := (T g).valid_root
  have key : ∀ d : (T g).E, (T g).Desc (T g).root d → (T g).level d = L → ∃ (j : Nat) (z : (T g).E),
      (leafSequence K D.leaves)[j]? = some ⟨g, z⟩ ∧ (T g).Valid z ∧ (T g).Desc z d := by
    intro d hd hl
    obtain ⟨z, hz, hzd⟩ := (hc g hg).covers hr hd
    have vz := (D.ordered g hg).1 z hz
    obtain ⟨j, hj⟩ := List.mem_iff_getElem?.1 ((mem_seq (D := D) (y := ⟨g, z⟩)).2 ⟨hg, hz⟩)
    refine ⟨j, z, hj, vz, ?_⟩
    rcases hzd with h | h
    · exact h
    · have := D.level_le g hg z hz
      have he := h.eq_of_level (hd.valid hr) (by omega)
      rw [he]
      exact Desc.refl
  constructor
  · obtain ⟨h1, h2, h3⟩ := firstDesc_spec hr (n := L) (by rw [(T g).level_root]; omega)
    rw [(T g).level_root] at h2
    obtain ⟨j, z, hj, vz, hzd⟩ := key _ h1 (by omega)
    have := hzd.lid_bounds vz (L := L) (by omega) hm
    rw [h3, lid_root] at this
    exact ⟨j, z, hj, by omega⟩
  · obtain ⟨h1, h2, h3⟩ := lastDesc_spec hr (n := L) (by rw [(T g).level_root]; omega)
    rw [(T g).level_root] at h2 h3
    obtain ⟨j, z, hj, vz, hzd⟩ := key _ h1 (by omega)
    have hb := hzd.lid_bounds vz (L := L) (by omega) hm
    have h4 := h3 L (by omega) hm
    rw [lid_root] at h4
    have hz : (T g).level z ≤ L := (leaf_props hj).2.2.1
    have := (desc_root vz).lid_bounds hr hz hm
    rw [lid_root] at this
    exact ⟨j, z, hj, by omega⟩

/-- The first tree is shared exactly if the first leaf is not at its beginning. -/
theorem shares_iff (hc : D.Complete) {p g : Nat} (hp : p < P) (hn : D.part.Nonempty p) {y : (T g).E}
    (hy : (leafSequence K D.leaves)[D.part.off p]? = some ⟨g, y⟩) : (trees D).SharesFirst p ↔ lid y L ≠ 0 := by
  obtain ⟨y1, y2, y3, y4⟩ := leaf_props hy
  simp only at y1 y2 y3 y4
  rw [(trees D).sharesFirst_iff (by omega) (by omega), trees_nonempty hp, trees_first hn hy]
  constructor
  · rintro ⟨h0, h1, _⟩
    rw [show ((p : Int) - 1) = ((p - 1 : Nat) : Int) by omega, trees_last, show p - 1 + 1 = p by omega] at h1
    have hpos : D.part.off p ≠ 0 := by
      intro h
      rw [h] at h1
      simp [bd] at h1
    obtain ⟨x, hx⟩ : ∃ x, (leafSequence K D.leaves)[D.part.off p - 1]? = some x := by
      have := (List.getElem?_eq_some_iff.1 hy).1
      exact ⟨_, List.getElem?_eq_getElem (by omega)⟩
    have h2 := bd_succ hx
    rw [show D.part.off p - 1 + 1 = D.part.off p by omega, ← h1] at h2
    have h3 := seq_rel hx hy (by omega)
    obtain ⟨x1, x2, x3, x4⟩ := leaf_props hx
    have hcp := count_pos x2 x3 x4
    rcases h3 with h3 | h3
    · simp only at h2 h3; omega
    · have := h3.2
      simp only at this
      omega
  · intro h
    obtain ⟨⟨j, z, hj, hz⟩, _⟩ := complete_ends hc y1
    have hjp : j < D.part.off p := by
      rcases lt_trichotomy j (D.part.off p) with h' | h' | h'
      · exact h'
      · rw [h', hy] at hj
        simp only [Option.some.injEq, Sigma.mk.injEq, heq_eq_eq, true_and] at hj
        rw [hj] at h
        exact absurd hz h
      · rcases seq_rel hy hj h' with h3 | h3
        · simp at h3
        · have := h3.2
          simp only at this
          omega
    have h0 : 0 < p := by
      by_contra hc
      obtain rfl : p = 0 := by omega
      rw [D.part.zero] at hjp
      omega
    refine ⟨by omega, ?_, hn⟩
    rw [show ((p : Int) - 1) = ((p - 1 : Nat) : Int) by omega, trees_last, show p - 1 + 1 = p by omega]
    obtain ⟨x, hx⟩ : ∃ x, (leafSequence K D.leaves)[D.part.off p - 1]? = some x := by
      have := (List.getElem?_eq_some_iff.1 hy).1
      exact ⟨_, List.getElem?_eq_getElem (by omega)⟩
    have h2 := bd_succ hx
    rw [show D.part.off p - 1 + 1 = D.part.off p by omega] at h2
    rw [h2]
    have h3 := tree_mono hj hx (by omega)
    have h4 := tree_mono hx hy (by omega)
    simp only at h3 h4 ⊢
    omega

/-- The last tree is shared exactly if the last leaf is not at its end. -/
theorem shares_last_iff (hc : D.Complete) {p g : Nat} (hp : p < P) (hn : D.part.Nonempty p) {y : (T g).E}
    (hy : (leafSequence K D.leaves)[D.part.off (p + 1) - 1]? = some ⟨g, y⟩) :
    (∃ q, p < q ∧ (trees D).Owns (q : Nat) g) ↔ lid y L + (T g).count y L ≠ (T g).count (T g).root L := by
  obtain ⟨y1, y2, y3, y4⟩ := leaf_props hy
  have hn' : D.part.off p < D.part.off (p + 1) := hn
  simp only at y1 y2 y3 y4
  constructor
  · rintro ⟨q, hq, ho⟩
    obtain ⟨hqP, z, hz⟩ := (trees_owns q g).1 ho
    obtain ⟨j, j1, j2, j3⟩ := (mem_local hqP).1 hz
    have := D.part.off_mono (p := p + 1) (q := q) (by omega) (by omega)
    obtain ⟨z1, z2, z3, z4⟩ := leaf_props j3
    simp only at z1 z2 z3 z4
    have hcp := count_pos z2 z3 z4
    have hb := (desc_root z2).lid_bounds (T g).valid_root z3 z4
    rw [lid_root] at hb
    rcases seq_rel hy j3 (by omega) with h3 | h3
    · simp at h3
    · have := h3.2
      simp only at this
      omega
  · intro h
    obtain ⟨_, j, z, hj, hz⟩ := complete_ends hc y1
    have hjp : D.part.off (p + 1) ≤ j := by
      rcases lt_trichotomy j (D.part.off (p + 1) - 1) with h' | h' | h'
      · obtain ⟨z1, z2, z3, z4⟩ := leaf_props hj
        have hcp := count_pos y2 y3 y4
        have hb := (desc_root y2).lid_bounds (T g).valid_root y3 y4
        rw [lid_root] at hb
        rcases seq_rel hj hy h' with h3 | h3
        · simp at h3
        · have := h3.2
          simp only at this
          omega
      · rw [h', hy] at hj
        simp only [Option.some.injEq, Sigma.mk.injEq, heq_eq_eq, true_and] at hj
        rw [hj] at h
        exact absurd hz h
      · omega
    obtain ⟨q, q1, q2, q3⟩ := exists_process (D := D) (List.getElem?_eq_some_iff.1 hj).1
    refine ⟨q, ?_, (trees_owns q g).2 ⟨q1, z, (mem_local q1).2 ⟨j, q2, q3, hj⟩⟩⟩
    by_contra hc
    have := D.part.off_mono (p := q + 1) (q := p + 1) (by omega) (by omega)
    omega

/-! ### The functions -/

variable {S : (g : Nat) → Scheme (T g)} {G : Global} {forests : Nat → LocalForest T}

/-- The values that all processes know are those of the forest `D`, and every process stores its part. -/
structure Stored (D : DistForest T P K L) (G : Global) (forests : Nat → LocalForest T) : Prop where
  size : G.mpisize = P
  trees : G.numTrees = K
  leaves : G.numLeaves = (leafSequence K D.leaves).length
  maxlevel : G.maxlevel = L
  complete : G.incomplete = false
  part : ∀ p, p < P → D.IsPart p (forests p)

theorem sharedTree_first {g : Nat} {l : List (T g).E} {y : (T g).E} (hS : (S g).Lawful) (hm : G.maxlevel = L) (hl : l.head? = some y)
    (vy : (T g).Valid y) (hy : (T g).level y ≤ L) (hL : L ≤ (T g).maxLevel) :
    ∃ b, sharedTree S G ⟨g, l⟩ false = some b ∧ (b = true ↔ lid y L ≠ 0) := by
  have hr := (T g).valid_root
  obtain ⟨e1, _⟩ := hS.descendants.eq vy hy hL
  obtain ⟨e2, _⟩ := hS.descendants.eq hr (by rw [(T g).level_root]; omega) hL
  obtain ⟨f1, f2, f3⟩ := firstDesc_spec vy (n := L - (T g).level y) (by omega)
  obtain ⟨g1, g2, g3⟩ := firstDesc_spec hr (n := L - (T g).level (T g).root) (by rw [(T g).level_root]; omega)
  refine ⟨_, by simp only [sharedTree, treeDesc, hl]; rfl, ?_⟩
  simp only [hm, e1, e2, Bool.not_eq_true', Bool.not_false, if_true]
  rw [← Bool.not_eq_true, hS.isEqual _ _ (g1.valid hr) (f1.valid vy), not_iff_not]
  rw [(T g).level_root] at g2 g1 g3 ⊢
  constructor
  · intro h
    have := f3 L
    rw [← h, g3, lid_root] at this
    exact this.symm
  · intro h
    refine lid_inj (g1.valid hr) (f1.valid vy) (by omega) (L := L) (by omega) hL ?_
    rw [g3, f3, lid_root, h]

theorem sharedTree_last {g : Nat} {l : List (T g).E} {y : (T g).E} (hS : (S g).Lawful) (hm : G.maxlevel = L) (hl : l.getLast? = some y)
    (vy : (T g).Valid y) (hy : (T g).level y ≤ L) (hL : L ≤ (T g).maxLevel) :
    ∃ b, sharedTree S G ⟨g, l⟩ true = some b ∧ (b = true ↔ lid y L + (T g).count y L ≠ (T g).count (T g).root L) := by
  have hr := (T g).valid_root
  obtain ⟨_, e1⟩ := hS.descendants.eq vy hy hL
  obtain ⟨_, e2⟩ := hS.descendants.eq hr (by rw [(T g).level_root]; omega) hL
  obtain ⟨f1, f2, f3⟩ := lastDesc_spec vy (n := L - (T g).level y) (by omega)
  obtain ⟨g1, g2, g3⟩ := lastDesc_spec hr (n := L - (T g).level (T g).root) (by rw [(T g).level_root]; omega)
  refine ⟨_, by simp only [sharedTree, treeDesc, hl]; rfl, ?_⟩
  simp only [hm, e1, e2, Bool.not_eq_true', Bool.not_true, if_false, Bool.false_eq_true]
  rw [← Bool.not_eq_true, hS.isEqual _ _ (g1.valid hr) (f1.valid vy), not_iff_not]
  rw [(T g).level_root] at g2 g1 g3 ⊢
  have f4 := f3 L (by omega) hL
  have g4 := g3 L (by omega) hL
  rw [lid_root] at g4
  rw [count_self' (by omega)] at f4 g4
  constructor
  · intro h
    rw [h] at g4
    omega
  · intro h
    exact lid_inj (g1.valid hr) (f1.valid vy) (by omega) (L := L) (by omega) hL (by omega)

theorem shared_assert (h : Stored D G forests) {p : Nat} (hp : p < P) :
    (forests p).firstLocalTree > -1 ∧ (forests p).firstLocalTree ≤ G.numTrees ∧
      (forests p).firstLocalTree ≤ (forests p).lastLocalTree + 1 ∧ (forests p).lastLocalTree ≤ G.numTrees := by
  have hf := h.part p hp
  have hb := hf.bounds
  have hl := hf.last
  rw [h.trees]
  by_cases hn : D.part.Nonempty p
  · obtain ⟨t, y, _, _, hy, h2⟩ := part_last hp hf hn
    have := (leaf_props hy).1
    simp only at this
    omega
  · rw [part_trees_nil hp hf hn] at hl
    simp at hl
    omega

theorem treeShared_first (hS : ∀ g, g < K → (S g).Lawful) (hc : D.Complete) (h : Stored D G forests) {p : Nat} (hp : p < P) :
    ∃ b, treeShared S G forests p false = some b ∧ (b = true ↔ (trees D).SharesFirst p) := by
  have hf := h.part p hp
  rw [treeShared]
  simp only
  rw [assertO_true (shared_assert h hp)]
  simp only [Option.bind_eq_bind, Option.bind_some, h.complete, Bool.false_eq_true, if_false, Option.pure_def]
  have hsh := (trees D).sharesFirst_iff (p := p) (by omega) (by omega)
  by_cases h1 : G.mpisize = 1
  · rw [if_pos h1]
    refine ⟨_, rfl, ?_⟩
    rw [hsh]
    have := h.size
    simp
    omega
  rw [if_neg h1]
  by_cases hn : D.part.Nonempty p
  · obtain ⟨t, y, ht, hy, hy', e1, e2⟩ := part_head hp hf hn
    obtain ⟨y1, y2, y3, y4⟩ := leaf_props hy'
    rw [if_neg (by rw [not_or, part_le_zero hp hf]; exact ⟨fun h => h hn, by omega⟩)]
    simp only [Bool.not_false, if_true, ht, Option.bind_some]
    obtain ⟨b, b1, b2⟩ := sharedTree_first (S := S) (hS _ y1) h.maxlevel hy y2 y3 y4
    exact ⟨b, b1, by rw [b2, shares_iff hc hp hn hy']⟩
  · rw [if_pos (Or.inl ((part_le_zero hp hf).2 hn))]
    refine ⟨_, rfl, ?_⟩
    rw [hsh, trees_nonempty hp]
    simp [hn]

theorem treeShared_last (hS : ∀ g, g < K → (S g).Lawful) (hc : D.Complete) (h : Stored D G forests) {p : Nat} (hp : p < P) :
    ∃ b, treeShared S G forests p true = some b ∧
      (b = true ↔ D.part.Nonempty p ∧ ∃ q, p < q ∧ (trees D).Owns (q : Nat) (forests p).lastLocalTree) := by
  have hf := h.part p hp
  rw [treeShared]
  simp only
  rw [assertO_true (shared_assert h hp)]
  simp only [Option.bind_eq_bind, Option.bind_some, h.complete, Bool.false_eq_true, if_false, Option.pure_def]
  by_cases h1 : G.mpisize = 1
  · rw [if_pos h1]
    refine ⟨_, rfl, ?_⟩
    have := h.size
    simp
    rintro _ q hq ⟨_, hq', _⟩
    omega
  rw [if_neg h1]
  by_cases hn : D.part.Nonempty p
  · obtain ⟨_, _, _, _, _, _, e2⟩ := part_head hp hf hn
    obtain ⟨t, y, ht, hy, hy', e1⟩ := part_last hp hf hn
    obtain ⟨y1, y2, y3, y4⟩ := leaf_props hy'
    rw [if_neg (by rw [not_or, part_le_zero hp hf]; exact ⟨fun h => h hn, by omega⟩)]
    simp only [Bool.not_true, Bool.false_eq_true, if_false, ht, Option.bind_some]
    obtain ⟨b, b1, b2⟩ := sharedTree_last (S := S) (hS _ y1) h.maxlevel hy y2 y3 y4
    exact ⟨b, b1, by rw [b2, ← shares_last_iff hc hp hn hy', e1]; simp [hn]⟩
  · rw [if_pos (Or.inl ((part_le_zero hp hf).2 hn))]
    exact ⟨_, rfl, by simp [hn]⟩

open Classical in
/-- The documented entry of process `p`. -/
noncomputable def entry (D : DistForest T P K L) (p : Nat) : Int :=
  if (trees D).SharesFirst p then - (trees D).first p - 1 else (trees D).first p

theorem first_local (h : Stored D G forests) {p : Nat} (hp : p < P) (hn : D.part.Nonempty p) :
    (forests p).firstLocalTree = (trees D).first p := by
  obtain ⟨t, y, _, _, hy', e1, _⟩ := part_head hp (h.part p hp) hn
  rw [e1, trees_first hn hy']

theorem treeOffset_eq (hS : ∀ g, g < K → (S g).Lawful) (hc : D.Complete) (h : Stored D G forests) {p : Nat} (hp : p < P) :
    treeOffset S G forests p = some (open Classical in if D.part.Nonempty p then entry D p else K) := by
  obtain ⟨b, b1, b2⟩ := treeShared_first hS hc h hp
  rw [treeOffset, b1]
  simp only [Option.bind_eq_bind, Option.bind_some, Option.pure_def]
  by_cases hn : D.part.Nonempty p
  · rw [if_neg (by rw [part_le_zero hp (h.part p hp)]; exact fun h => h hn), if_pos hn, entry, first_local h hp hn]
    by_cases hs : (trees D).SharesFirst p
    · rw [if_pos (b2.2 hs), if_pos hs]
    · rw [if_neg (fun h => hs (b2.1 h)), if_neg hs]
  · rw [if_pos ((part_le_zero hp (h.part p hp)).2 hn), if_neg hn, h.trees]

theorem entry_lt {p : Nat} (hp : p < P) (hn : D.part.Nonempty p) : entry D p < K := by
  have h1 := (trees D).nonneg p (by omega) (by omega)
  have h2 := (trees_nonempty hp).2 hn
  have h3 := (trees D).last_le_top (p := p) (by omega) (by omega)
  rw [entry]
  split_ifs <;> omega

theorem off_const {p : Nat} : ∀ {r : Nat}, p ≤ r → r ≤ P → (∀ x, p ≤ x → x < r → ¬ D.part.Nonempty x) → D.part.off r = D.part.off p := by
  intro r
  induction r with
  | zero => intro h _ _; rw [show p = 0 by omega]
  | succ r ih =>
    intro h hr hx
    rcases eq_or_lt_of_le h with rfl | h
    · rfl
    · rw [← ih (by omega) (by omega) (fun x h1 h2 => hx x h1 (by omega))]
      have h1 := not_lt.1 (hx r (by omega) (by omega))
      have h2 := D.part.mono r (by omega)
      omega

theorem correctedOffset_eq (hS : ∀ g, g < K → (S g).Lawful) (hc : D.Complete) (h : Stored D G forests) {array : List Int}
    (ha : ∀ p : Nat, p < P → rd array p = some (open Classical in if D.part.Nonempty p then entry D p else K))
    (htop : rd array (P : Int) = some (K : Int)) {p : Nat} (hp : p < P) : correctedOffset S G forests array p = some (entry D p) := by
  rw [correctedOffset]
  by_cases hn : D.part.Nonempty p
  · rw [if_neg (by rw [part_le_zero hp (h.part p hp)]; exact fun h => h hn), treeOffset_eq hS hc h hp, if_pos hn]
  rw [if_pos ((part_le_zero hp (h.part p hp)).2 hn)]
  obtain ⟨r, hr, ⟨h2, h3, h4⟩, hcond⟩ := whileO_spec
    (cond := fun n : Int => if n < G.mpisize then (do let v ← rd array n; some (decide (v ≥ G.numTrees))) else some false)
    (body := fun n => some (n + 1))
    (fun r => (p : Int) + 1 ≤ r ∧ r ≤ P ∧ (∀ x : Nat, p ≤ x → (x : Int) < r → ¬ D.part.Nonempty x)) (fun r => ((P : Int) - r).toNat)
    (by
      rintro s ⟨h2, h3, h4⟩
      rw [h.size, h.trees]
      by_cases hs : s < P
      · rw [if_pos hs]
        obtain ⟨s, rfl⟩ := Int.eq_ofNat_of_zero_le (show 0 ≤ s by omega)
        have hs' : s < P := by omega
        rw [ha s hs']
        by_cases he : D.part.Nonempty s
        · left
          have := entry_lt hs' he
          simp [he]
          omega
        · right
          refine ⟨by simp [he], _, rfl, ⟨by omega, by omega, ?_⟩, by omega⟩
          intro x hx hx'
          rcases eq_or_ne x s with rfl | hne
          · exact he
          · exact h4 x hx (by omega)
      · left; simp [hs]) ((p : Int) + 1) ⟨le_rfl, by omega, fun x hx hx' => by rw [show x = p by omega]; exact hn⟩
  rw [hr]
  simp only [Option.bind_eq_bind, Option.bind_some, Option.pure_def]
  obtain ⟨r, rfl⟩ := Int.eq_ofNat_of_zero_le (show 0 ≤ r by omega)
  have hoff := off_const (D := D) (p := p) (r := r) (by omega) (by omega) (fun x h1 h2 => h4 x h1 (by omega))
  have hent : entry D p = bd D (D.part.off r) + 1 := by
    rw [entry, if_neg, trees_empty hn, hoff]
    rw [(trees D).sharesFirst_iff (by omega) (by omega), trees_nonempty hp]
    exact fun h => hn h.2.2
  rw [hent]
  rcases eq_or_lt_of_le h3 with hrP | hrP
  · obtain rfl : r = P := by omega
    rw [Offset.first, assertO_true (by omega), htop, D.part.top, bd_top]
    simp [not_lt.2 (show (0 : Int) ≤ K by omega)]
  · have hrP' : r < P := by omega
    have hrn : D.part.Nonempty r := by
      by_contra hne
      rw [h.size, h.trees, if_pos hrP, ha r hrP'] at hcond
      simp [hne] at hcond
    rw [Offset.first, assertO_true (by omega), ha r hrP']
    simp only [Option.bind_eq_bind, Option.bind_some, Option.pure_def, hrn, if_true]
    have hsh := (trees D).sharesFirst_iff (p := r) (by omega) (by omega)
    have h0 := (trees D).nonneg r (by omega) (by omega)
    have hlast : (trees D).last ((r : Int) - 1) = bd D (D.part.off r) := by
      rw [show ((r : Int) - 1) = ((r - 1 : Nat) : Int) by omega, trees_last, show r - 1 + 1 = r by omega]
    rw [entry]
    by_cases hs : (trees D).SharesFirst r
    · have := (hsh.1 hs).2.1
      rw [hlast] at this
      simp only [if_pos hs]
      rw [if_pos (by omega), if_pos (by omega), abs_of_neg (by omega)]
      congr 1
      omega
    · have := (trees D).first_eq_of_not_shares (p := r) (by omega) (by omega) hs
      rw [hlast] at this
      simp only [if_neg hs]
      rw [if_neg (by omega), if_neg (by omega), abs_of_nonneg h0, this]
      simp

theorem rd_map_range {f : Nat → Int} {x : Int} {p : Nat} (hp : p < P) : rd ((List.range P).map f ++ [x]) (p : Int) = some (f p) := by
  rw [rd, if_neg (by omega)]
  simp [List.getElem?_append_left, hp]

theorem rd_map_range_top {f : Nat → Int} {x : Int} : rd ((List.range P).map f ++ [x]) (P : Int) = some x := by
  rw [rd, if_neg (by omega)]
  simp

theorem createTreeOffsets_eq (hS : ∀ g, g < K → (S g).Lawful) (hc : D.Complete) (h : Stored D G forests) :
    createTreeOffsets S G forests = some ((List.range P).map (entry D) ++ [(K : Int)]) := by
  rw [createTreeOffsets, h.size]
  rw [mapM_some (g := fun p => open Classical in if D.part.Nonempty p then entry D p else K)
    (fun p hp => treeOffset_eq hS hc h (List.mem_range.1 hp))]
  simp only [Option.bind_eq_bind, Option.bind_some, Option.pure_def, h.trees]
  by_cases he : ((List.range P).any fun p => decide ((forests p).localNum ≤ 0)) = true
  · rw [if_pos he, mapM_some (g := entry D) (fun p hp => correctedOffset_eq hS hc h (fun q hq => rd_map_range hq) rd_map_range_top
      (List.mem_range.1 hp))]
    rfl
  · rw [if_neg he]
    congr 2
    refine List.map_congr_left (fun p hp => ?_)
    have hp' := List.mem_range.1 hp
    rw [if_pos]
    by_contra hn
    exact he (List.any_eq_true.2 ⟨p, hp, by simpa using (part_le_zero hp' (h.part p hp')).2 hn⟩)

theorem encodes_entries : (trees D).Encodes ((List.range P).map (entry D) ++ [(K : Int)]) := by
  refine ⟨by simp, ?_, by simp⟩
  intro p h0 h1
  obtain ⟨p, rfl⟩ := Int.eq_ofNat_of_zero_le h0
  rw [Int.toNat_natCast, List.getElem?_append_left (by simp; omega)]
  rw [List.getElem?_map, List.getElem?_range (by omega)]
  rfl

theorem firstLocalElement_eq (h : Stored D G forests) : ∀ {p : Nat}, p < P → firstLocalElement forests p = D.part.off p := by
  have hsum : ∀ n, n ≤ P → ((List.range n).map (fun p => (forests p).localNum)).sum = D.part.off n := by
    intro n
    induction n with
    | zero => intro _; simp [D.part.zero]
    | succ n ih =>
      intro hn
      rw [List.range_succ, List.map_append, List.sum_append, ih (by omega)]
      simp [part_num (show n < P by omega) (h.part n (by omega))]
  intro p hp
  rw [firstLocalElement, hsum _ (by omega), part_num hp (h.part p hp)]
  omega

theorem createOffsets_eq (h : Stored D G forests) : createOffsets G forests = D.part.table := by
  rw [createOffsets, h.size, h.leaves, ElementPartition.table, List.range_succ, List.map_append]
  congr 1
  · exact List.map_congr_left (fun p hp => firstLocalElement_eq h (List.mem_range.1 hp))
  · simp [D.part.top]

open Classical in
/-- The documented entry of the array of first descendants. -/
noncomputable def descEntry (D : DistForest T P K L) (p : Nat) : Nat :=
  if D.part.Nonempty p then (((leafSequence K D.leaves)[D.part.off p]?).map (fun y => lid y.2 L)).getD 0 else 0

theorem firstDesc_eq (hS : ∀ g, g < K → (S g).Lawful) (h : Stored D G forests) {p : Nat} (hp : p < P) :
    firstDesc S G (forests p) = some (descEntry D p) := by
  have hf := h.part p hp
  rw [firstDesc, descEntry]
  by_cases hn : D.part.Nonempty p
  · obtain ⟨t, y, ht, hy, hy', e1, e2⟩ := part_head hp hf hn
    obtain ⟨y1, y2, y3, y4⟩ := leaf_props hy'
    simp only at y1 y2 y3 y4
    rw [if_neg (by rw [part_le_zero hp hf]; exact fun h => h hn), if_pos hn, hy', ht]
    simp only [firstLeaf, h.complete, ht, hy, Bool.false_eq_true, if_false, Option.bind_eq_bind, Option.bind_some, Option.map_some,
      Option.getD_some, Option.pure_def, h.maxlevel]
    obtain ⟨f1, f2, f3⟩ := firstDesc_spec y2 (n := L - (T t.1).level y) (by omega)
    rw [((hS _ y1).descendants.eq y2 y3 y4).1, (hS _ y1).linearId.eq (f1.valid y2) (by omega) y4, f3]
    rfl
  · rw [if_pos ((part_le_zero hp hf).2 hn), if_neg hn]
    rfl

theorem createFirstDesc_eq (hS : ∀ g, g < K → (S g).Lawful) (h : Stored D G forests) :
    createFirstDesc S G forests = some ((List.range P).map (descEntry D)) := by
  rw [createFirstDesc, h.size]
  exact mapM_some (fun p hp => firstDesc_eq hS h (List.mem_range.1 hp))

theorem arrays_created : D.Arrays ((List.range P).map (entry D) ++ [(K : Int)]) D.part.table ((List.range P).map (descEntry D)) := by
  refine ⟨⟨trees D, encodes_entries, trees_owns⟩, rfl, ?_⟩
  intro p hp
  refine ⟨descEntry D p, by rw [List.getElem?_map, List.getElem?_range hp]; rfl, ?_⟩
  intro y hy
  have hn : D.part.Nonempty p := by
    by_contra hn
    rw [DistForest.localLeaves, slice_empty _ (Or.inl (not_lt.1 hn))] at hy
    simp at hy
  obtain ⟨z, hz, hz'⟩ := local_head hp hn
  rw [hy, Option.some.injEq] at hz
  subst hz
  obtain ⟨y1, y2, y3, y4⟩ := leaf_props hz'
  rw [descEntry, if_pos hn, hz']
  exact uniform_getElem_lid' y2 y3 y4

end T8.ForestArrays
