/-
C26: partition for coarsening.
-/
import Verif.Lemmas.PfcOffsets
import Verif.Props.Owner

namespace T8.Pfc
open T8.Spec T8.Trees RTree

variable {T : Nat → RTree} {S : (g : Nat) → Scheme (T g)} {P K : Nat}

/-- C26. Let the processes store the leaves of a forest with the partition `D.part`, and let `Q` be any new partition of the leaves (its
offsets may come from any weights). Elements have at most `T8_ECLASS_MAX_CHILDREN` children. Then `t8_forest_pfc_correction_offsets`
succeeds: no assertion fails, every message that a process waits for is sent, and no array is read or written out of bounds. The corrected offsets are
again those of a partition; an offset that splits a complete family of leaves is moved to the end of this family, all others are not
changed. -/
theorem C26_corrected (hS : ∀ g, (S g).Lawful) {bs : Int → List (OffTree (Σ g, (T g).E)) → Option Nat}
    (hbs : ∀ key l, Stash.IsBsearch compareElemTree key l (bs key l)) (hnc : ∀ g x, (T g).Valid x → (T g).nc x ≤ 10)
    (D : LeafForest T P K) {forests : Nat → Forest T} (hF : ∀ p, p < P → Stored D.seq (D.part.off p) (D.part.off (p + 1)) (forests p))
    (Q : ElementPartition P D.seq.length) :
    ∃ Q' : ElementPartition P D.seq.length, correctionOffsets S bs D.part.table Q.table P forests = some Q'.table ∧
      ∀ b, b ≤ P → Moved D.seq (Q.off b) (Q'.off b) := by
  choose mv hmv using moved_exists D.seq
  refine ⟨⟨fun b => mv (Q.off b), Q.pos, ?_, ?_, ?_⟩, ?_, fun b _ => hmv _⟩
  · have h0 : Moved D.seq 0 0 := Or.inl ⟨by rintro ⟨a, g, x, _, h, _⟩; omega, rfl⟩
    rw [Q.zero]
    exact (hmv 0).unique h0
  · rw [Q.top]
    exact Nat.le_antisymm ((hmv _).le_length le_rfl) (hmv _).le
  · intro p hp
    exact (hmv _).mono (hmv _) (Q.mono p hp)
  · exact correctionOffsets_spec D.part (linear D) hS hbs hnc hF Q hmv

/-- C26. With the corrected offsets no complete family of leaves is split: all its members get to one process. An offset moves by less
than the size of a family, and never backwards. -/
theorem C26_no_split (hS : ∀ g, (S g).Lawful) {bs : Int → List (OffTree (Σ g, (T g).E)) → Option Nat}
    (hbs : ∀ key l, Stash.IsBsearch compareElemTree key l (bs key l)) (hnc : ∀ g x, (T g).Valid x → (T g).nc x ≤ 10)
    (D : LeafForest T P K) {forests : Nat → Forest T} (hF : ∀ p, p < P → Stored D.seq (D.part.off p) (D.part.off (p + 1)) (forests p))
    (Q : ElementPartition P D.seq.length) :
    ∃ Q' : ElementPartition P D.seq.length, correctionOffsets S bs D.part.table Q.table P forests = some Q'.table ∧
      (∀ a g x, FamilyAt D.seq a g x → ∃ p, p < P ∧ Q'.off p ≤ a ∧ a + (T g).nc x ≤ Q'.off (p + 1)) ∧
      (∀ b, b ≤ P → Q.off b ≤ Q'.off b ∧ Q'.off b < Q.off b + 10 ∧
        (Q'.off b ≠ Q.off b → ∃ a g x, FamilyAt D.seq a g x ∧ a < Q.off b ∧ Q'.off b < Q.off b + (T g).nc x ∧ Q'.off b = a + (T g).nc x)) ∧
      ((∀ b, b ≤ P → ¬ Splits D.seq (Q.off b)) → Q'.table = Q.table) := by
  obtain ⟨Q', h1, h2⟩ := C26_corrected hS hbs hnc D hF Q
  refine ⟨Q', h1, ?_, ?_, ?_⟩
  · intro a g x hf
    have hlt := hf.lt
    have hpos := (T g).nc_pos x hf.1
    obtain ⟨p, _, hp, hp1, hp2⟩ := procOwner_spec Q' (e := (a : Int)) (by omega)
    refine ⟨p, hp, by omega, ?_⟩
    by_contra hc
    refine (h2 (p + 1) (by omega)).not_splits ⟨a, g, x, hf, ?_, by omega⟩
    rcases Nat.eq_or_lt_of_le (show p + 1 ≤ P by omega) with h | h
    · rw [h, Q'.top]; omega
    · have := hp2 (p + 1) h (by omega)
      omega
  · intro b hb
    have hm := h2 b hb
    refine ⟨hm.le, ?_, ?_⟩
    · rcases hm with ⟨_, h⟩ | ⟨a, g, x, hf, k1, k2, k3⟩
      · omega
      · have := hnc g x hf.1
        omega
    · intro hne
      rcases hm with ⟨_, h⟩ | ⟨a, g, x, hf, k1, k2, k3⟩
      · exact absurd h hne
      · exact ⟨a, g, x, hf, k1, by omega, k3⟩
  · intro hns
    rw [ElementPartition.table, ElementPartition.table]
    refine List.map_congr_left ?_
    intro b hb
    have hb' : b ≤ P := by have := List.mem_range.1 hb; omega
    rcases h2 b hb' with ⟨_, h⟩ | ⟨a, g, x, hf, k1, k2, k3⟩
    · rw [h]
    · exact absurd ⟨a, g, x, hf, k1, k2⟩ (hns b hb')

/-- C26. The messages match: a process sends at most one message to each process, and only to processes that wait for it. -/
theorem C26_messages (hS : ∀ g, (S g).Lawful) {bs : Int → List (OffTree (Σ g, (T g).E)) → Option Nat}
    (hbs : ∀ key l, Stash.IsBsearch compareElemTree key l (bs key l))
    (D : LeafForest T P K) {forests : Nat → Forest T} (hF : ∀ p, p < P → Stored D.seq (D.part.off p) (D.part.off (p + 1)) (forests p))
    {p : Nat} (hp : p < P) :
    ∃ sent, sends S bs D.part.table P forests p = some sent ∧ sent.Pairwise (fun x y => x.1 < y.1) ∧
      ∀ x ∈ sent, ∃ q : Nat, x.1 = q ∧ q < P ∧ q ≠ p ∧ (forests q).localNum ≠ 0 ∧ D.part.off p < D.part.off (p + 1) ∧
        ∃ b e : Int, relevantRange D.part.table q P = some (b, e) ∧ b ≤ p ∧ p < e := by
  have hnum := fun (q : Nat) (hq : q < P) => (hF q hq).num
  by_cases hne : D.part.off p < D.part.off (p + 1)
  · obtain ⟨sent, h1, h2, _, h3⟩ := sends_spec D.part (linear D) hS hbs hF hp hne
    refine ⟨sent, h1, h3, ?_⟩
    intro x hx
    obtain ⟨q, hq, hpart, _⟩ := h2 x hx
    obtain ⟨k1, k2, k3, k4, k5, k6, k7⟩ := hpart
    have k5' : D.part.off q < D.part.off (q + 1) := k5
    obtain ⟨b, e, hbe, _, _, _, r1, r2, _, _⟩ := relevantRange_spec D.part k3 k5
    refine ⟨q, hq, k3, k1.symm, ?_, hne, b, e, hbe, ?_, ?_⟩
    · rw [hnum q k3, T8.Partition.slice_length]
      have := D.part.off_le (p := q + 1) (by omega)
      have h : (leafSequence K D.leaves).length = D.seq.length := rfl
      omega
    · have := (r1 p hp hne).2 k7
      omega
    · have := (r2 p hp hne).2 k6
      omega
  · refine ⟨[], ?_, List.Pairwise.nil, by simp⟩
    rw [sends, if_neg]
    rw [hnum p hp, T8.Partition.slice_empty _ (Or.inl (by omega))]
    simp

end T8.Pfc

namespace T8.Pfc.Example
open T8.Spec T8.Trees RTree T8.Sample T8.Standalone T8.Owner.Example

/-- The example forest of `Props/Owner.lean`: two quadrilaterals with seven leaves each on four processes. The leaves 1 to 4 and 8 to 11
are families; the old offsets 3 and 10 split them. -/
def D' : LeafForest TQ 4 2 := ⟨D.leaves, D.ordered, D.part⟩

/-- What the processes store. -/
def forests : Nat → Forest TQ
  | 0 => ⟨0, 3, [⟨0, 0, [leafN 0, leafN 1, leafN 2]⟩]⟩
  | 1 => ⟨0, 0, []⟩
  | 2 => ⟨0, 7, [⟨0, 0, [leafN 3, leafN 4, leafN 5, leafN 6]⟩, ⟨1, 4, [leafN 0, leafN 1, leafN 2]⟩]⟩
  | _ => ⟨1, 4, [⟨1, 0, [leafN 3, leafN 4, leafN 5, leafN 6]⟩]⟩

theorem stored : ∀ p, p < 4 → Stored D'.seq (D'.part.off p) (D'.part.off (p + 1)) (forests p) := by
  intro p hp
  obtain rfl | rfl | rfl | rfl : p = 0 ∨ p = 1 ∨ p = 2 ∨ p = 3 := by omega
  · refine ⟨rfl, rfl, ?_, ?_⟩ <;>
    · intro i t ht
      match i with
      | 0 => simp [forests] at ht; subst ht; rfl
      | i + 1 => simp [forests] at ht
  · exact ⟨rfl, rfl, by intro i t ht; simp [forests] at ht, by intro i t ht; simp [forests] at ht⟩
  · refine ⟨rfl, rfl, ?_, ?_⟩ <;>
    · intro i t ht
      match i with
      | 0 => simp [forests] at ht; subst ht; rfl
      | 1 => simp [forests] at ht; subst ht; rfl
      | i + 2 => simp [forests] at ht
  · refine ⟨rfl, rfl, ?_, ?_⟩ <;>
    · intro i t ht
      match i with
      | 0 => simp [forests] at ht; subst ht; rfl
      | i + 1 => simp [forests] at ht

/-- The new offsets 0, 3, 7, 10, 14: the offsets 3 and 10 split families. -/
def Q' : ElementPartition 4 D'.seq.length := ⟨fun p => [0, 3, 7, 10, 14].getD p 14, by decide, rfl, by decide +kernel, by decide⟩

theorem family : FamilyAt D'.seq 1 0 (c 1) := by
  refine ⟨valid_c (by decide), lt_max (by decide), ?_⟩
  intro i hi
  have hi' : i < 4 := hi
  obtain rfl | rfl | rfl | rfl : i = 0 ∨ i = 1 ∨ i = 2 ∨ i = 3 := by omega
  all_goals rfl

theorem nc_le : ∀ g x, (TQ g).Valid x → (TQ g).nc x ≤ 10 := by
  intro g x _
  show 4 ≤ 10
  decide

/-- The hypotheses hold for this forest; the first offset moves from 3 to 5. -/
example : ∃ R : ElementPartition 4 D'.seq.length,
    correctionOffsets (fun _ => Cls.scheme .quad) (firstMatch compareElemTree) D'.part.table Q'.table 4 forests = some R.table ∧ R.off 1 = 5 := by
  obtain ⟨R, h1, h2⟩ := C26_corrected (fun _ => Cls.scheme_lawful .quad) (fun k l => firstMatch_spec compareElemTree k l) nc_le D' stored Q'
  refine ⟨R, h1, (h2 1 (by decide)).unique (Or.inr ⟨1, 0, c 1, family, by decide, by decide, rfl⟩)⟩

example := C26_no_split (fun _ => Cls.scheme_lawful .quad) (fun k l => firstMatch_spec compareElemTree k l) nc_le D' stored Q'
example := C26_messages (fun _ => Cls.scheme_lawful .quad) (fun k l => firstMatch_spec compareElemTree k l) D' stored (p := 2) (by decide)

end T8.Pfc.Example
