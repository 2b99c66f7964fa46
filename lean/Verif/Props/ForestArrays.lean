/-
C51: the arrays about the distribution of a forest have the documented content.
-/
import Verif.Lemmas.ForestArrays
import Verif.Props.Owner

namespace T8.ForestArrays
open T8.Spec RTree T8.Owner T8.Partition

variable {T : Nat → RTree} {P K L : Nat} {D : DistForest T P K L} {S : (g : Nat) → Scheme (T g)} {G : Global}
  {forests : Nat → LocalForest T}

/-- The arrays that the library creates for a forest whose trees are covered by leaves have the documented content, whatever the
distribution of the leaves is; the array of first descendants has one entry for each process. -/
theorem C51_arrays (hS : ∀ g, g < K → (S g).Lawful) (hc : D.Complete) (h : Stored D G forests) :
    ∃ treeOffsets firstDescs, createTreeOffsets S G forests = some treeOffsets ∧ createFirstDesc S G forests = some firstDescs ∧
      D.Arrays treeOffsets (createOffsets G forests) firstDescs ∧ firstDescs.length = P := by
  refine ⟨_, _, createTreeOffsets_eq hS hc h, createFirstDesc_eq hS h, ?_, by simp⟩
  rw [createOffsets_eq h]
  exact arrays_created

/-- `t8_forest_first_tree_shared` is true exactly if a smaller process has a leaf of the tree of the first local leaf. -/
theorem C51_first_tree_shared (hS : ∀ g, g < K → (S g).Lawful) (hc : D.Complete) (h : Stored D G forests) {p : Nat} (hp : p < P) :
    ∃ b, treeShared S G forests p false = some b ∧
      (b = true ↔ ∃ y q x, (D.localLeaves p).head? = some y ∧ q < p ∧ ⟨y.1, x⟩ ∈ D.localLeaves q) := by
  obtain ⟨b, b1, b2⟩ := treeShared_first hS hc h hp
  refine ⟨b, b1, b2.trans ?_⟩
  constructor
  · rintro ⟨⟨_, _, _, h2⟩, q, hq, ho⟩
    have hn := (trees_nonempty hp).1 h2
    obtain ⟨y, hy, hy'⟩ := local_head hp hn
    obtain ⟨q, rfl⟩ := Int.eq_ofNat_of_zero_le ho.1
    rw [trees_first hn hy'] at ho
    obtain ⟨_, x, hx⟩ := (trees_owns q y.1).1 ho
    exact ⟨y, q, x, hy, by omega, hx⟩
  · rintro ⟨y, q, x, hy, hq, hx⟩
    have hn : D.part.Nonempty p := by
      by_contra hn
      rw [DistForest.localLeaves, slice_empty _ (Or.inl (not_lt.1 hn))] at hy
      simp at hy
    obtain ⟨z, hz, hz'⟩ := local_head hp hn
    rw [hy, Option.some.injEq] at hz
    subst hz
    have hf := trees_first hn hz'
    refine ⟨⟨by omega, by omega, le_rfl, (trees_nonempty hp).2 hn⟩, q, by omega, ?_⟩
    rw [hf]
    exact (trees_owns q y.1).2 ⟨by omega, x, hx⟩

/-- `t8_forest_last_tree_shared` is true exactly if a greater process has a leaf of the tree of the last local leaf. -/
theorem C51_last_tree_shared (hS : ∀ g, g < K → (S g).Lawful) (hc : D.Complete) (h : Stored D G forests) {p : Nat} (hp : p < P) :
    ∃ b, treeShared S G forests p true = some b ∧
      (b = true ↔ ∃ y q x, (D.localLeaves p).getLast? = some y ∧ p < q ∧ q < P ∧ ⟨y.1, x⟩ ∈ D.localLeaves q) := by
  obtain ⟨b, b1, b2⟩ := treeShared_last hS hc h hp
  have hlast : ∀ {t : Σ g, List (T g).E} {y}, D.part.Nonempty p → (forests p).lastLocalTree = t.1 →
      (leafSequence K D.leaves)[D.part.off (p + 1) - 1]? = some ⟨t.1, y⟩ → (D.localLeaves p).getLast? = some ⟨t.1, y⟩ := by
    intro t y hn _ hy
    have hn' : D.part.off p < D.part.off (p + 1) := hn
    obtain ⟨k2, k3⟩ := part_succ (D := D) hp
    rw [DistForest.localLeaves, List.getLast?_eq_getElem?, slice_length, slice_getElem? _ _ _ _ (by omega), ← hy]
    congr 1
    omega
  refine ⟨b, b1, b2.trans ?_⟩
  constructor
  · rintro ⟨hn, q, hq, ho⟩
    obtain ⟨t, y, _, _, hy, he⟩ := part_last hp (h.part p hp) hn
    rw [he] at ho
    obtain ⟨hqP, x, hx⟩ := (trees_owns q t.1).1 ho
    exact ⟨_, q, x, hlast hn he hy, hq, hqP, hx⟩
  · rintro ⟨z, q, x, hz, hq, hqP, hx⟩
    have hn : D.part.Nonempty p := by
      by_contra hn
      rw [DistForest.localLeaves, slice_empty _ (Or.inl (not_lt.1 hn))] at hz
      simp at hz
    obtain ⟨t, y, _, _, hy, he⟩ := part_last hp (h.part p hp) hn
    rw [hlast hn he hy, Option.some.injEq] at hz
    subst hz
    exact ⟨hn, q, hq, by rw [he]; exact (trees_owns q t.1).2 ⟨hqP, x, hx⟩⟩

/-- With the arrays that the library creates, the search for the owner of an element finds the process with the leaf that covers its
first descendant, provided that a later process has leaves (see `C51_find_owner_out_of_bounds`). -/
theorem C51_find_owner_partial (hS : ∀ g, g < K → (S g).Lawful) (hc : D.Complete) (h : Stored D G forests)
    {treeOffsets : List Int} {firstDescs : List Nat} (h1 : createTreeOffsets S G forests = some treeOffsets)
    (h2 : createFirstDesc S G forests = some firstDescs) {g : Nat} {e : (T g).E} (hg : g < K) (he : (T g).Valid e)
    (hl : (T g).level e ≤ L) :
    ∃ q, D.Owns q g e ∧ ((∃ r, q < r ∧ r < P ∧ D.part.Nonempty r) →
      findOwner (S g) ⟨P, K, L, treeOffsets, createOffsets G forests, firstDescs⟩ g e = some (q : Int)) := by
  obtain ⟨a, b, ha, hb, hA, _⟩ := C51_arrays hS hc h
  rw [h1, Option.some.injEq] at ha
  rw [h2, Option.some.injEq] at hb
  subst ha hb
  obtain ⟨q, hq⟩ := C27_exists hc hg he hl
  exact ⟨q, hq, fun hr => C27_find_partial ⟨rfl, rfl, rfl, hA⟩ (hS g hg) he hl hq (Or.inr hr)⟩

/-- With the arrays that the library creates, the search for the owner that is started with the last process that has leaves reads
behind the end of the array of first descendants if this process is the owner and there are at least two processes. -/
theorem C51_find_owner_out_of_bounds (hS : ∀ g, g < K → (S g).Lawful) (hc : D.Complete) (h : Stored D G forests)
    {treeOffsets : List Int} {firstDescs : List Nat} (h1 : createTreeOffsets S G forests = some treeOffsets)
    (h2 : createFirstDesc S G forests = some firstDescs) {g q : Nat} {e : (T g).E} (hg : g < K) (he : (T g).Valid e)
    (hl : (T g).level e ≤ L) (hq : D.Owns q g e) (hlast : ∀ r, q < r → r < P → ¬ D.part.Nonempty r) (hP : 1 < P) :
    findOwnerExt (S g) ⟨P, K, L, treeOffsets, createOffsets G forests, firstDescs⟩ g e 0 ((P : Int) - 1) q false = none := by
  obtain ⟨a, b, ha, hb, hA, hlen⟩ := C51_arrays hS hc h
  rw [h1, Option.some.injEq] at ha
  rw [h2, Option.some.injEq] at hb
  subst ha hb
  exact C27_out_of_bounds ⟨rfl, rfl, rfl, hA⟩ (hS g hg) he (isDesc := false) (by simpa using hl) hq hlen hlast (by omega)

end T8.ForestArrays

/-! ### Examples -/

namespace T8.ForestArrays.Example
open T8.Spec RTree T8.Sample T8.Standalone T8.Owner.Example

/-- What the four processes store of the example forest of `Props/Owner.lean`; process 1 has no leaves. -/
def parts : Nat → LocalForest TQ
  | 0 => ⟨0, 0, 3, [⟨0, [leafN 0, leafN 1, leafN 2]⟩]⟩
  | 1 => ⟨0, -1, 0, []⟩
  | 2 => ⟨0, 1, 7, [⟨0, [leafN 3, leafN 4, leafN 5, leafN 6]⟩, ⟨1, [leafN 0, leafN 1, leafN 2]⟩]⟩
  | _ => ⟨1, 1, 4, [⟨1, [leafN 3, leafN 4, leafN 5, leafN 6]⟩]⟩

def glob : Global := ⟨4, 2, 14, 2, false⟩

theorem stored : Stored D glob parts := by
  refine ⟨rfl, rfl, rfl, rfl, rfl, ?_⟩
  intro p hp
  obtain rfl | rfl | rfl | rfl : p = 0 ∨ p = 1 ∨ p = 2 ∨ p = 3 := by omega
  · refine ⟨rfl, rfl, by simp [parts], ?_, rfl, by decide⟩
    intro i t ht
    match i with
    | 0 => simp [parts] at ht; subst ht; rfl
    | i + 1 => simp [parts] at ht
  · exact ⟨rfl, rfl, by simp [parts], by intro i t ht; simp [parts] at ht, rfl, by decide⟩
  · refine ⟨rfl, rfl, by simp [parts], ?_, rfl, by decide⟩
    intro i t ht
    match i with
    | 0 => simp [parts] at ht; subst ht; rfl
    | 1 => simp [parts] at ht; subst ht; rfl
    | i + 2 => simp [parts] at ht
  · refine ⟨rfl, rfl, by simp [parts], ?_, rfl, by decide⟩
    intro i t ht
    match i with
    | 0 => simp [parts] at ht; subst ht; rfl
    | i + 1 => simp [parts] at ht

/-- The result for empty ranks, if the next rank is not empty. -/
theorem corrected_next {G : Global} {forests : Nat → LocalForest TQ} {array : List Int} {rank : Nat} {v : Int}
    (h0 : (forests rank).localNum ≤ 0) (h1 : rd array ((rank : Int) + 1) = some v) (h2 : (rank : Int) + 1 < G.mpisize) (h3 : v < G.numTrees) :
    correctedOffset (fun _ => Cls.scheme .quad) G forests array rank = some (if v < 0 then |v| - 1 + 1 else |v|) := by
  have hw : whileO (fun n : Int => if n < G.mpisize then (do let v ← rd array n; some (decide (v ≥ G.numTrees))) else some false)
      (fun n => some (n + 1)) ((rank : Int) + 1) = some ((rank : Int) + 1) := by
    rw [whileO]
    simp [h1, h2, h3]
  rw [correctedOffset, if_pos h0, hw]
  simp only [Offset.first, Option.bind_eq_bind, Option.bind_some, h1, assertO_true (show (0 : Int) ≤ (rank : Int) + 1 by omega)]
  by_cases hv : v < 0 <;> simp [hv]

theorem trees_example : createTreeOffsets (fun _ => Cls.scheme .quad) glob parts = some [0, 1, -1, -2, 2] := by
  have h1 : (List.range 4).mapM (treeOffset (fun _ => Cls.scheme .quad) glob parts) = some [0, 2, -1, -2] := by decide +kernel
  have h2 := corrected_next (G := glob) (forests := parts) (array := [0, 2, -1, -2, 2]) (rank := 1) (v := -1) (by decide) (by decide)
    (by decide) (by decide)
  have h3 : (List.range 4).mapM (correctedOffset (fun _ => Cls.scheme .quad) glob parts [0, 2, -1, -2, 2]) = some [0, 1, -1, -2] := by
    rw [mapM_some (g := fun p => [0, 1, -1, -2].getD p 0)]
    · decide
    · intro p hp
      have := List.mem_range.1 hp
      obtain rfl | rfl | rfl | rfl : p = 0 ∨ p = 1 ∨ p = 2 ∨ p = 3 := by omega
      · rw [correctedOffset, if_neg (by decide)]; decide +kernel
      · rw [h2]; decide
      · rw [correctedOffset, if_neg (by decide)]; decide +kernel
      · rw [correctedOffset, if_neg (by decide)]; decide +kernel
  rw [createTreeOffsets, show glob.mpisize = 4 from rfl, h1]
  simp only [Option.bind_eq_bind, Option.bind_some]
  rw [if_pos (by decide), show ([0, 2, -1, -2] ++ [glob.numTrees] : List Int) = [0, 2, -1, -2, 2] from rfl, h3]
  rfl

/-- The hypotheses of C51 are met, and the arrays are the ones of the example. -/
theorem arrays_example : createTreeOffsets (fun _ => Cls.scheme .quad) glob parts = some [0, 1, -1, -2, 2] ∧
    createOffsets glob parts = [0, 3, 3, 10, 14] ∧ createFirstDesc (fun _ => Cls.scheme .quad) glob parts = some [0, 0, 6, 6] ∧
    ∃ t d, createTreeOffsets (fun _ => Cls.scheme .quad) glob parts = some t ∧
      createFirstDesc (fun _ => Cls.scheme .quad) glob parts = some d ∧ D.Arrays t (createOffsets glob parts) d ∧ d.length = 4 :=
  ⟨trees_example, by decide +kernel, by decide +kernel,
    C51_arrays (fun _ _ => Cls.scheme_lawful .quad) (fun _ _ => Sample.tiles) stored⟩

/-- A forest with one tree that has two of the leaves only. The processes 0 and 2 have one leaf each, process 1 has none. -/
def D' : DistForest TQ 3 1 2 where
  leaves := fun _ => [leafN 0, leafN 1]
  ordered := fun _ _ => Sample.ordered.sublist (show [leafN 0, leafN 1].Sublist Sample.leaves from by decide +kernel)
  nonempty := fun _ _ => by simp
  level_le := fun _ _ => (show ∀ x ∈ [leafN 0, leafN 1], Q.level x ≤ 2 by decide +kernel)
  maxLevel := fun _ _ => (show 2 ≤ Q.maxLevel by decide)
  part := ⟨fun p => [0, 1, 1, 2].getD p 2, by decide, rfl, by decide +kernel, by decide⟩

def parts' : Nat → LocalForest TQ
  | 0 => ⟨0, 0, 1, [⟨0, [leafN 0]⟩]⟩
  | 1 => ⟨0, -1, 0, []⟩
  | _ => ⟨0, 0, 1, [⟨0, [leafN 1]⟩]⟩

theorem parts'_isPart : ∀ p, p < 3 → D'.IsPart p (parts' p) := by
  intro p hp
  obtain rfl | rfl | rfl : p = 0 ∨ p = 1 ∨ p = 2 := by omega
  · refine ⟨rfl, rfl, by simp [parts'], ?_, rfl, by decide⟩
    intro i t ht
    match i with
    | 0 => simp [parts'] at ht; subst ht; rfl
    | i + 1 => simp [parts'] at ht
  · exact ⟨rfl, rfl, by simp [parts'], by intro i t ht; simp [parts'] at ht, rfl, by decide⟩
  · refine ⟨rfl, rfl, by simp [parts'], ?_, rfl, by decide⟩
    intro i t ht
    match i with
    | 0 => simp [parts'] at ht; subst ht; rfl
    | i + 1 => simp [parts'] at ht

theorem trees_example' : createTreeOffsets (fun _ => Cls.scheme .quad) ⟨3, 1, 2, 2, true⟩ parts' = some [0, 0, 0, 1] := by
  have h1 : (List.range 3).mapM (treeOffset (fun _ => Cls.scheme .quad) ⟨3, 1, 2, 2, true⟩ parts') = some [0, 1, 0] := by decide +kernel
  have h2 := corrected_next (G := ⟨3, 1, 2, 2, true⟩) (forests := parts') (array := [0, 1, 0, 1]) (rank := 1) (v := 0) (by decide)
    (by decide) (by decide) (by decide)
  have h3 : (List.range 3).mapM (correctedOffset (fun _ => Cls.scheme .quad) ⟨3, 1, 2, 2, true⟩ parts' [0, 1, 0, 1]) =
      some [0, 0, 0] := by
    rw [mapM_some (g := fun p => [0, 0, 0].getD p 0)]
    · decide
    · intro p hp
      have := List.mem_range.1 hp
      obtain rfl | rfl | rfl : p = 0 ∨ p = 1 ∨ p = 2 := by omega
      · rw [correctedOffset, if_neg (by decide)]; decide +kernel
      · rw [h2]; decide
      · rw [correctedOffset, if_neg (by decide)]; decide +kernel
  rw [createTreeOffsets]
  simp only [h1, Option.bind_eq_bind, Option.bind_some]
  rw [if_pos (by decide), show ([0, 1, 0] ++ [1] : List Int) = [0, 1, 0, 1] from rfl, h3]
  rfl

/-- Finding: for incomplete trees a process only asks the process before it for the last tree. If this process is empty, then a shared
first tree is not recognized and the array of tree offsets has a wrong entry: here it says that process 0 has no tree. -/
theorem C51_incomplete_wrong : ∃ treeOffsets,
    createTreeOffsets (fun _ => Cls.scheme .quad) ⟨3, 1, 2, 2, true⟩ parts' = some treeOffsets ∧
      ∀ elementOffsets firstDescs, ¬ D'.Arrays treeOffsets elementOffsets firstDescs := by
  refine ⟨[0, 0, 0, 1], trees_example', ?_⟩
  rintro _ _ ⟨⟨R, hR, hown⟩, _, _⟩
  obtain ⟨_, _, _, h1⟩ := (hown 0 0).2 ⟨by decide, leafN 0, by simp [show D'.localLeaves 0 = [⟨0, leafN 0⟩] from rfl]⟩
  have h2 := hR.2.1 1 (by decide) (by decide)
  have h3 := R.nonneg 1 (by decide) (by decide)
  by_cases hs : R.SharesFirst 1
  · rw [if_pos hs] at h2
    simp at h2
    omega
  · rw [if_neg hs] at h2
    simp at h2
    have := R.first_eq_of_not_shares (p := 1) (by decide) (by decide) hs
    simp at this h1
    omega

end T8.ForestArrays.Example
